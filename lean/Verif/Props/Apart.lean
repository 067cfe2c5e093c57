import Verif.Props.Together
/-
The blocking rules of a list and its exceptions (C103), and requests for which a list is not meant (C104).
-/
namespace AdBlock
open Spec

/-- Whether a rule counts depends on the rules of its kind only. -/
theorem counted_kind {bad : List Bytes} {rs : List RuleText} {q : Request} {r : RuleText} {p : RuleText → Bool} (hp : ∀ x, p x = true ↔ x.exception = r.exception) :
    Counted bad (rs.filter p) q r ↔ Counted bad rs q r := by
  have hr : p r = true := (hp r).2 rfl
  constructor
  · rintro ⟨h1, h2, h3⟩
    refine ⟨fun hh => ?_, h2, fun dl hd hpos x hx hs => h3 dl hd hpos x (List.mem_filter.2 ⟨hx, (hp x).2 hs⟩) hs⟩
    obtain ⟨⟨before, after, h4, h5⟩, h6⟩ := h1 hh
    obtain ⟨l1, l2, rfl, h7, h8⟩ := List.filter_eq_append_iff.1 h4
    obtain ⟨l3, l4, rfl, h9, -, -⟩ := List.filter_eq_cons_iff.1 h8
    refine ⟨⟨l1 ++ l3, l4, by simp, fun x hx hc => ?_⟩, h6⟩
    rcases List.mem_append.1 hx with hx | hx
    · exact h5 x (h7 ▸ List.mem_filter.2 ⟨hx, (hp x).2 hc.2.1⟩) hc
    · exact h9 x hx ((hp x).2 hc.2.1)
  · rintro ⟨h1, h2, h3⟩
    refine ⟨fun hh => ?_, h2, fun dl hd hpos x hx hs => h3 dl hd hpos x (List.mem_filter.1 hx).1 hs⟩
    obtain ⟨⟨before, after, h4, h5⟩, h6⟩ := h1 hh
    refine ⟨⟨before.filter p, after.filter p, ?_, fun x hx => h5 x (List.mem_filter.1 hx).1⟩, h6⟩
    rw [h4, List.filter_append, List.filter_cons_of_pos hr]

/-- … and it makes no difference to it which kind that is. -/
theorem counted_asBlocking {bad : List Bytes} {es : List RuleText} {q : Request} {r : RuleText} (hex : ∀ x ∈ es, x.exception = true) (hr : r.exception = true) :
    Counted bad (es.map asBlocking) q (asBlocking r) ↔ Counted bad es q r := by
  have back : ∀ x ∈ es, asBlocking x = asBlocking r → x = r := fun x hx h => by
    have hx := hex x hx
    cases x; cases r
    simp only [asBlocking, RuleText.mk.injEq] at h hx hr ⊢
    simp_all
  constructor
  · rintro ⟨h1, h2, h3⟩
    refine ⟨fun hh => ?_, h2, fun dl hd hpos x hx _ => h3 dl hd hpos (asBlocking x) (List.mem_map_of_mem hx) rfl⟩
    obtain ⟨⟨before, after, h4, h5⟩, h6⟩ := h1 hh
    obtain ⟨l1, l2, rfl, h7, h8⟩ := List.map_eq_append_iff.1 h4
    obtain ⟨x, l3, rfl, h9, -⟩ := List.map_eq_cons_iff.1 h8
    have := back x (by simp) h9
    subst this
    exact ⟨⟨l1, l3, rfl, fun y hy hc => h5 (asBlocking y) (h7 ▸ List.mem_map_of_mem hy) ⟨hc.1, rfl, hc.2.2⟩⟩, h6⟩
  · rintro ⟨h1, h2, h3⟩
    refine ⟨fun hh => ?_, h2, fun dl hd hpos x hx _ => ?_⟩
    · obtain ⟨⟨before, after, h4, h5⟩, h6⟩ := h1 hh
      subst h4
      refine ⟨⟨before.map asBlocking, after.map asBlocking, by simp, fun x hx hc => ?_⟩, h6⟩
      obtain ⟨y, hy, rfl⟩ := List.mem_map.1 hx
      exact h5 y hy ⟨hc.1, (hex y (by simp [hy])).trans hr.symm, hc.2.2⟩
    · obtain ⟨y, hy, rfl⟩ := List.mem_map.1 hx
      exact h3 dl hd hpos y hy ((hex y hy).trans hr.symm)

theorem kind_false (r : RuleText) (h : r.exception = false) (x : RuleText) : (!x.exception) = true ↔ x.exception = r.exception := by simp [h]
theorem kind_true (r : RuleText) (h : r.exception = true) (x : RuleText) : x.exception = true ↔ x.exception = r.exception := by simp [h]

theorem asBlocking_askable {E : Env} {rs : List RuleText} {q : Request} (hq : Askable E rs q) : Askable E (rs.map asBlocking) q := by
  refine ⟨hq.web, ⟨fun x hx => ?_⟩, fun hd x hx => ?_, hq.rolls⟩
  · obtain ⟨y, hy, rfl⟩ := List.mem_map.1 hx
    exact hq.safe.inBounds y hy
  · obtain ⟨y, hy, rfl⟩ := List.mem_map.1 hx
    exact hq.empty hd y hy

/-- **C103**: a list blocks a request exactly if its blocking rules alone do, and its exceptions alone, without their `@@`, do not. -/
theorem C103_apart {E : Env} {A B C : Bytes} {rs : List RuleText} (hA : Lists E A rs) (hB : Lists E B (blockingOf rs))
    (hC : Lists E C ((exceptionsOf rs).map asBlocking)) (preserve : Bool) (tags : List Bytes) {q : Request} (hq : Askable E rs q) :
    ∃ b e, Answers E B preserve tags q b ∧ Answers E C preserve tags q e ∧ Answers E A preserve tags q (b && !e) := by
  obtain ⟨a, h1, h2⟩ := answers_iff hA preserve tags hq
  obtain ⟨b, h3, h4⟩ := answers_iff hB preserve tags (askable_subset hq fun r hr => (List.mem_filter.1 hr).1)
  obtain ⟨e, h5, h6⟩ := answers_iff hC preserve tags (asBlocking_askable (askable_subset hq fun r hr => (List.mem_filter.1 hr).1))
  have hno : ∀ r ∈ blockingOf rs, r.exception = false := fun r hr => by simpa using (List.mem_filter.1 hr).2
  have hyes : ∀ r ∈ exceptionsOf rs, r.exception = true := fun r hr => (List.mem_filter.1 hr).2
  have hb : b = true ↔ ∃ r ∈ rs, r.exception = false ∧ Counted E.bad rs q r ∧ r.AppliesTo tags q := by
    rw [h4]
    constructor
    · rintro ⟨⟨r, hr, he, hc, ha⟩, -⟩
      exact ⟨r, (List.mem_filter.1 hr).1, he, (counted_kind (kind_false r he)).1 hc, ha⟩
    · rintro ⟨r, hr, he, hc, ha⟩
      refine ⟨⟨r, List.mem_filter.2 ⟨hr, by simp [he]⟩, he, (counted_kind (kind_false r he)).2 hc, ha⟩, ?_⟩
      rintro ⟨x, hx, hx', -⟩
      rw [hno x hx] at hx'
      cases hx'
  have he : e = true ↔ ∃ r ∈ rs, r.exception = true ∧ Counted E.bad rs q r ∧ r.AppliesTo tags q := by
    rw [h6]
    constructor
    · rintro ⟨⟨x, hx, -, hc, ha⟩, -⟩
      obtain ⟨r, hr, rfl⟩ := List.mem_map.1 hx
      have hr' := hyes r hr
      exact ⟨r, (List.mem_filter.1 hr).1, hr', (counted_kind (kind_true r hr')).1 ((counted_asBlocking hyes hr').1 hc), ha⟩
    · rintro ⟨r, hr, hr', hc, ha⟩
      refine ⟨⟨asBlocking r, List.mem_map_of_mem (List.mem_filter.2 ⟨hr, hr'⟩), rfl,
        (counted_asBlocking hyes hr').2 ((counted_kind (kind_true r hr')).2 hc), ha⟩, ?_⟩
      rintro ⟨x, hx, hx', -⟩
      obtain ⟨y, -, rfl⟩ := List.mem_map.1 hx
      cases hx'
  rw [← hb, ← he] at h2
  refine ⟨b, e, h3, h5, ?_⟩
  have : a = (b && !e) := by rw [Bool.eq_iff_iff, h2]; simp
  exact this ▸ h1

/-- **C103**: it makes no difference where the exceptions of a list are written among its blocking rules. -/
theorem C103_interleaving {E : Env} {A B : Bytes} {rs rs' : List RuleText} (hA : Lists E A rs) (hB : Lists E B rs') (hb : blockingOf rs' = blockingOf rs)
    (he : exceptionsOf rs' = exceptionsOf rs) (preserve : Bool) (tags : List Bytes) {q : Request} (hq : Askable E rs q) :
    ∃ b, Answers E A preserve tags q b ∧ Answers E B preserve tags q b := by
  have hmem : ∀ r, r ∈ rs' ↔ r ∈ rs := fun r => by
    have h1 : r ∈ blockingOf rs' ↔ r ∈ blockingOf rs := by rw [hb]
    have h2 : r ∈ exceptionsOf rs' ↔ r ∈ exceptionsOf rs := by rw [he]
    simp only [blockingOf, exceptionsOf, List.mem_filter] at h1 h2
    cases hk : r.exception <;> simp_all
  refine answers_same hA hB preserve preserve hq (askable_subset hq fun r hr => (hmem r).1 hr) fun s => ?_
  unfold CountedApplies
  refine exists_congr fun r => ?_
  rw [hmem]
  refine and_congr_right fun hr => and_congr_right fun hs => and_congr_left fun _ => ?_
  cases hk : r.exception with
  | false =>
    rw [← counted_kind (rs := rs) (kind_false r hk), ← counted_kind (rs := rs') (kind_false r hk)]
    unfold blockingOf at hb
    rw [hb]
  | true =>
    rw [← counted_kind (rs := rs) (kind_true r hk), ← counted_kind (rs := rs') (kind_true r hk)]
    unfold exceptionsOf at he
    rw [he]

/-! ### requests for which a list is not meant -/

theorem elsewhere_applies {r : RuleText} {tags : List Bytes} {q : Request} (h : Elsewhere r tags q) : ¬ r.AppliesTo tags q := by
  rintro ⟨-, h1, h2, h3, -⟩
  unfold RuleText.TypeAllowed at h1
  cases h with
  | types ht hne hn =>
    rw [ht] at h1
    rcases h1.1 with h | h
    · exact hn h
    · exact hne h.1
  | notTypes ht hm => rw [ht] at h1; exact h1.2.1 hm
  | document ht hd hn => rw [ht] at h1; exact hn (h1.2.2 hd)
  | unknown ht hne => rw [ht] at h1; exact hne h1.1
  | thirdParty hd hs hh => exact (h2 _ hd).1 hs hh
  | sameParty hd hs hh => exact hh ((h2 _ hd).2.1 hs)
  | pages hd hv hn => exact hn ((h2 _ hd).2.2 _ hv)
  | tag hv hne hn => exact (h3 _ hv).elim hne hn

/-- **C104**: a request for which none of the blocking rules is, by what their options say, is never blocked, … -/
theorem C104_left_alone {E : Env} {A : Bytes} {rs : List RuleText} (hA : Lists E A rs) (preserve : Bool) {tags : List Bytes} {q : Request}
    (hq : Askable E rs q) (h : ∀ r ∈ rs, r.exception = false → Elsewhere r tags q) : Answers E A preserve tags q false := by
  obtain ⟨b, h1, h2⟩ := answers_iff hA preserve tags hq
  have : b = false := by
    rw [← Bool.not_eq_true, h2]
    rintro ⟨⟨r, hr, he, -, ha⟩, -⟩
    exact elsewhere_applies (h r hr he) ha
  exact this ▸ h1

/-- … and if none of the exceptions is for it, it is answered as if there were none. -/
theorem C104_no_exceptions {E : Env} {A B : Bytes} {rs : List RuleText} (hA : Lists E A rs) (hB : Lists E B (blockingOf rs)) (preserve : Bool)
    {tags : List Bytes} {q : Request} (hq : Askable E rs q) (h : ∀ r ∈ rs, r.exception = true → Elsewhere r tags q) :
    ∃ b, Answers E A preserve tags q b ∧ Answers E B preserve tags q b := by
  refine answers_same hA hB preserve preserve hq (askable_subset hq fun r hr => (List.mem_filter.1 hr).1) fun s => ?_
  unfold CountedApplies
  refine exists_congr fun r => ?_
  constructor
  · rintro ⟨hr, hs, hc, ha⟩
    cases hk : r.exception with
    | false => exact ⟨List.mem_filter.2 ⟨hr, by simp [hk]⟩, hk.symm.trans hs, (counted_kind (kind_false r hk)).2 hc, ha⟩
    | true => exact absurd ha (elsewhere_applies (h r hr hk))
  · rintro ⟨hr, hs, hc, ha⟩
    have hk : r.exception = false := by simpa using (List.mem_filter.1 hr).2
    exact ⟨(List.mem_filter.1 hr).1, hs, (counted_kind (kind_false r hk)).1 hc, ha⟩

/-! ### Examples -/

private def exMixed : List RuleText :=
  [{ text := bs%"banner" }, { exception := true, text := bs%"banner", options := some bs%"image" }, { text := bs%"pixel" }]

private theorem exMixed_plain : ∀ r ∈ exMixed ++ (exceptionsOf exMixed).map asBlocking, plainRule r = true := by decide +kernel

/-- The exceptions of this list, read as rules, do not block the script, its blocking rules do, and so does the list. -/
example (E : Env) (hroll : ∀ url, E.fp.rolls url) : Answers E bs%"banner\n@@banner$image\npixel" false [] exBanner true ∧
    Answers E bs%"@@banner$image\nbanner\npixel" false [] exBanner true := by
  have hp : ∀ r ∈ exMixed, plainRule r = true := fun r hr => exMixed_plain r (List.mem_append_left _ hr)
  have hA : Lists E bs%"banner\n@@banner$image\npixel" exMixed := lists_rules (rs := exMixed) (plainRules_sound hp) (by decide)
  have hB : Lists E bs%"banner\npixel" (blockingOf exMixed) :=
    lists_rules (rs := blockingOf exMixed) (plainRules_sound fun r hr => hp r (List.mem_filter.1 hr).1) (by decide)
  have hC : Lists E bs%"banner$image" ((exceptionsOf exMixed).map asBlocking) :=
    lists_rules (rs := (exceptionsOf exMixed).map asBlocking) (plainRules_sound fun r hr => exMixed_plain r (List.mem_append_right _ hr)) (by decide)
  have hD : Lists E bs%"@@banner$image\nbanner\npixel" (exceptionsOf exMixed ++ blockingOf exMixed) :=
    lists_rules (rs := exceptionsOf exMixed ++ blockingOf exMixed)
      (plainRules_sound fun r hr => hp r ((List.mem_append.1 hr).elim (fun h => (List.mem_filter.1 h).1) fun h => (List.mem_filter.1 h).1)) (by decide)
  have hq := plainRules_askable (E := E) hroll hp exBanner_web
  have h1 : Answers E bs%"banner\n@@banner$image\npixel" false [] exBanner true := by
    obtain ⟨b, e, h1, h2, h3⟩ := C103_apart hA hB hC false [] hq
    have he : e = false := answers_unique h2 (answers_compared (v := false) (r := { text := bs%"banner", options := some bs%"image" }) hroll (by decide +kernel) rfl
      (.inl (by decide +kernel)) (by decide +kernel) (by decide +kernel) exBanner_web (by decide +kernel))
    have hb : b = true := by
      obtain ⟨b', h4, h5⟩ := answers_iff hB false [] (askable_subset hq fun r hr => (List.mem_filter.1 hr).1)
      rw [answers_unique h1 h4, h5]
      refine ⟨⟨{ text := bs%"banner" }, by simp [blockingOf, exMixed], rfl, ?_,
        (applies_compared (v := true) (by decide +kernel) exBanner_web (by decide +kernel) (by decide +kernel) []).2 rfl⟩, ?_⟩
      · have hd : ({ text := bs%"banner" } : RuleText).value bs%"domain=" = none := by decide +kernel
        exact ⟨fun hh => (nomatch hh.1), fun dl h => absurd (hd.symm.trans h.1) (by simp), fun dl h => absurd (hd.symm.trans h.1) (by simp)⟩
      · rintro ⟨r, hr, he, -⟩
        have := (List.mem_filter.1 hr).2
        rw [he] at this
        cases this
    rw [he, hb] at h3
    exact h3
  refine ⟨h1, ?_⟩
  obtain ⟨b, h2, h3⟩ := C103_interleaving hA hD rfl rfl false [] hq
  exact answers_unique h2 h1 ▸ h3

/-- A list for third parties and images leaves the scripts of a page itself alone. -/
example (E : Env) (hroll : ∀ url, E.fp.rolls url) :
    Answers E bs%"banner$third-party\npixel$image" false [] { exBanner with domain := some bs%"b.com" } false := by
  have hp : ∀ r ∈ [({ text := bs%"banner", options := some bs%"third-party" } : RuleText), { text := bs%"pixel", options := some bs%"image" }],
    plainRule r = true := by decide +kernel
  refine C104_left_alone (lists_rules (plainRules_sound hp) (by simp)) false
    (plainRules_askable (q := { exBanner with domain := some bs%"b.com" }) hroll hp
      ⟨exBanner_web.scheme, exBanner_web.host, exBanner_web.rest, exBanner_web.text, exBanner_web.type⟩) fun r hr _ => ?_
  rcases List.mem_cons.1 hr with rfl | hr
  · exact .thirdParty rfl (by decide +kernel) (.inl rfl)
  · rw [List.mem_singleton.1 hr]
    exact .types rfl (by decide +kernel) (by decide +kernel)

end AdBlock
