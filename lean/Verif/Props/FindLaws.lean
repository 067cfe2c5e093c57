import Verif.Props.Apart
/-
Laws about `findMatchingFilters` (C105).
-/
namespace AdBlock
open Spec

/-- What `findMatchingFilters` answers after a list has been loaded. -/
theorem finds_iff {E : Env} {input : Bytes} {rs : List RuleText} (h : Lists E input rs) (preserve : Bool) (tags : List Bytes) {q : Request} (hq : q.Web)
    (hsafe : Spec.Comparable rs q) : ∃ b, Finds E input preserve tags q b ∧
      (b = true ↔ (∃ r ∈ rs, r.exception = false ∧ HostCounted rs q r ∧ r.AppliesTo tags q) ∧
        ¬ ∃ r ∈ rs, r.exception = true ∧ HostCounted rs q r ∧ r.AppliesTo tags q) := by
  obtain ⟨c, gs, h1, h2, h3⟩ := load_inOrder (History.new (E := E)) h.noNul h.rules h.sound preserve
  rw [List.nil_append] at h2
  have hmem : ∀ t, t ∈ (c.addTags tags).tags ↔ t ∈ tags := by
    intro t
    rw [mem_addTags, parse_tags h1]
    simp [Client.fresh]
  have hnodup : (c.addTags tags).tags.Nodup := addTags_nodup (by rw [parse_tags h1]; simp [Client.fresh]) tags
  have hin : InOrder (c.addTags tags) { rules := rs, tags := tags } gs := ⟨addTags_history h2 tags, h3, h.sound, hnodup, hmem⟩
  obtain ⟨r, hr, hv⟩ := inOrder_find hin hq hsafe
  exact ⟨r.block, ⟨c, h1, r, hr, rfl⟩, hv.blocked⟩

theorem finds_unique {E : Env} {input : Bytes} {preserve : Bool} {tags : List Bytes} {q : Request} {b b' : Bool} (h : Finds E input preserve tags q b)
    (h' : Finds E input preserve tags q b') : b = b' := by
  obtain ⟨c, h1, r, h2, rfl⟩ := h
  obtain ⟨c', h3, r', h4, rfl⟩ := h'
  rw [h1] at h3
  cases h3
  rw [h2] at h4
  cases h4
  rfl

/-- A rule that counts still does if others are added behind it. -/
theorem hostCounted_more {rs more : List RuleText} {q : Request} {r : RuleText} (h : HostCounted rs q r) : HostCounted (rs ++ more) q r := fun hh => by
  obtain ⟨⟨before, after, h1, h2⟩, h3⟩ := h hh
  exact ⟨⟨before, after ++ more, by rw [h1]; simp, h2⟩, h3⟩

/-- … and it counts without those of the other kind. -/
theorem hostCounted_less {rs more : List RuleText} {q : Request} {r : RuleText} (hm : ∀ x ∈ more, x.exception ≠ r.exception)
    (h : HostCounted (rs ++ more) q r) : HostCounted rs q r := fun hh => by
  obtain ⟨⟨before, after, h1, h2⟩, h3⟩ := h hh
  refine ⟨?_, h3⟩
  rcases List.append_eq_append_iff.1 h1 with ⟨x, -, h5⟩ | ⟨x, h4, h5⟩
  · exact absurd rfl (hm r (by rw [h5]; simp))
  · cases x with
    | nil => exact absurd rfl (hm r (by rw [← (List.nil_append more), ← h5]; simp))
    | cons d x =>
      rw [List.cons_append] at h5
      injection h5 with h6 h7
      exact ⟨before, x, by rw [h4, h6], h2⟩

theorem mem_of_kind {rs more : List RuleText} {r : RuleText} (hm : ∀ x ∈ more, x.exception ≠ r.exception) (h : r ∈ rs ++ more) : r ∈ rs :=
  (List.mem_append.1 h).elim id fun h => absurd rfl (hm r h)

/-- **C105**: blocking rules at the end of a list never make `findMatchingFilters` let a request through, … -/
theorem C105_more_rules {E : Env} {A B : Bytes} {rs more : List RuleText} (hA : Lists E A rs) (hB : Lists E B (rs ++ more))
    (hm : ∀ r ∈ more, r.exception = false) (preserve : Bool) (tags : List Bytes) {q : Request} (hq : q.Web) (hs : Spec.Comparable (rs ++ more) q)
    (h : Finds E A preserve tags q true) : Finds E B preserve tags q true := by
  obtain ⟨b, h1, h2⟩ := finds_iff hA preserve tags hq ⟨fun r hr => hs.inBounds r (List.mem_append_left _ hr)⟩
  obtain ⟨b', h3, h4⟩ := finds_iff hB preserve tags hq hs
  obtain ⟨⟨r, hr, he, hc, ha⟩, hno⟩ := h2.1 (finds_unique h1 h)
  have : b' = true := h4.2 ⟨⟨r, List.mem_append_left _ hr, he, hostCounted_more hc, ha⟩, fun ⟨e, hr, he, hc, ha⟩ => by
    have hk : ∀ x ∈ more, x.exception ≠ e.exception := fun x hx => by rw [hm x hx, he]; simp
    exact hno ⟨e, mem_of_kind hk hr, he, hostCounted_less hk hc, ha⟩⟩
  exact this ▸ h3

/-- … and exceptions never make it block one. -/
theorem C105_more_exceptions {E : Env} {A B : Bytes} {rs more : List RuleText} (hA : Lists E A rs) (hB : Lists E B (rs ++ more))
    (hm : ∀ r ∈ more, r.exception = true) (preserve : Bool) (tags : List Bytes) {q : Request} (hq : q.Web) (hs : Spec.Comparable (rs ++ more) q)
    (h : Finds E A preserve tags q false) : Finds E B preserve tags q false := by
  obtain ⟨b, h1, h2⟩ := finds_iff hA preserve tags hq ⟨fun r hr => hs.inBounds r (List.mem_append_left _ hr)⟩
  obtain ⟨b', h3, h4⟩ := finds_iff hB preserve tags hq hs
  have hb : b = false := finds_unique h1 h
  have : b' = false := by
    rw [← Bool.not_eq_true, h4]
    rintro ⟨⟨r, hr, he, hc, ha⟩, hno⟩
    have hk : ∀ x ∈ more, x.exception ≠ r.exception := fun x hx => by rw [hm x hx, he]; simp
    rw [← Bool.not_eq_true, h2] at hb
    exact hb ⟨⟨r, mem_of_kind hk hr, he, hostCounted_less hk hc, ha⟩, fun ⟨e, hr, he, hc, ha⟩ =>
      hno ⟨e, List.mem_append_left _ hr, he, hostCounted_more hc, ha⟩⟩
  exact this ▸ h3

/-- A rule that is the only one of its kind for its host counts, or none does. -/
theorem hostCounted_one {rs : List RuleText} {q : Request} (h1 : OneRuleForHost rs q) (hs : Spec.Comparable rs q) {r : RuleText} (hr : r ∈ rs) {tags : List Bytes}
    (ha : r.AppliesTo tags q) : HostCounted rs q r ↔ (r.HostOnly → r.hostPart = q.host ∨ ch%'.' ∈ r.hostPart) := by
  refine ⟨fun h hh => (h hh).2, fun h hh => ⟨?_, h hh⟩⟩
  obtain ⟨r', before, after, h3, h4, h5, h6, h7⟩ := first_hostRule hr hh
  have hr' : r' ∈ rs := by rw [h3]; simp
  have : r = r' := h1 r hr r' hr' hh h4 h5.symm h6.symm (applies_host hs hr hh ha)
  exact ⟨before, after, this ▸ h3, h7⟩

/-- **C105**: the order of the rules makes no difference to `findMatchingFilters`, unless different ones of a kind consist of the same host. -/
theorem C105_order {E : Env} {A B : Bytes} {rs rs' : List RuleText} (hA : Lists E A rs) (hB : Lists E B rs') (hsame : ∀ r, r ∈ rs' ↔ r ∈ rs) (preserve : Bool)
    (tags : List Bytes) {q : Request} (hq : q.Web) (hs : Spec.Comparable rs q) (h1 : OneRuleForHost rs q) :
    ∃ b, Finds E A preserve tags q b ∧ Finds E B preserve tags q b := by
  have hs' : Spec.Comparable rs' q := ⟨fun r hr => hs.inBounds r ((hsame r).1 hr)⟩
  have h1' : OneRuleForHost rs' q := fun r hr r' hr' => h1 r ((hsame r).1 hr) r' ((hsame r').1 hr')
  obtain ⟨b, h2, h3⟩ := finds_iff hA preserve tags hq hs
  obtain ⟨b', h4, h5⟩ := finds_iff hB preserve tags hq hs'
  have key : ∀ s, (∃ r ∈ rs', r.exception = s ∧ HostCounted rs' q r ∧ r.AppliesTo tags q) ↔
      ∃ r ∈ rs, r.exception = s ∧ HostCounted rs q r ∧ r.AppliesTo tags q := fun s => by
    refine exists_congr fun r => ?_
    rw [hsame]
    refine and_congr_right fun hr => and_congr_right fun _ => and_congr_left fun ha => ?_
    rw [hostCounted_one h1 hs hr ha, hostCounted_one h1' hs' ((hsame r).2 hr) ha]
  rw [key, key] at h5
  have : b = b' := by rw [Bool.eq_iff_iff, h3, h5]
  exact ⟨b, h2, this ▸ h4⟩

/-- **C105**: `findMatchingFilters` and `matches` give the same answer, if every rule with `domain=` consists of a host or can be indexed. -/
theorem C105_same_answer {E : Env} {A : Bytes} {rs : List RuleText} (hA : Lists E A rs) (hdom : ∀ r ∈ rs, ∀ dl, ¬ ByDomain E.bad r dl) (preserve : Bool)
    (tags : List Bytes) {q : Request} (hq : Askable E rs q) : ∃ b, Answers E A preserve tags q b ∧ Finds E A preserve tags q b := by
  obtain ⟨b, h1, h2⟩ := answers_iff hA preserve tags hq
  obtain ⟨b', h3, h4⟩ := finds_iff hA preserve tags hq.web hq.safe
  have key : ∀ s, (∃ r ∈ rs, r.exception = s ∧ Counted E.bad rs q r ∧ r.AppliesTo tags q) ↔
      ∃ r ∈ rs, r.exception = s ∧ HostCounted rs q r ∧ r.AppliesTo tags q := fun s =>
    exists_congr fun r => and_congr_right fun hr => and_congr_right fun _ => and_congr_left fun _ =>
      ⟨Counted.host, fun h => ⟨h, fun dl hd => absurd hd (hdom r hr dl), fun dl hd => absurd hd (hdom r hr dl)⟩⟩
  rw [key, key] at h2
  have : b = b' := by rw [Bool.eq_iff_iff, h2, h4]
  exact ⟨b, h1, this ▸ h3⟩

/-! ### Examples -/

/-- `findMatchingFilters` blocks the image by `||ads.com^`, whatever blocking rules follow, … -/
example (E : Env) (hroll : ∀ url, E.fp.rolls url) : Finds E bs%"||ads.com^" false [] exAds true ∧ Finds E bs%"||ads.com^\n&b=$domain=~x.com" false [] exAds true ∧
    Finds E bs%"&b=$domain=~x.com\n||ads.com^" false [] exAds true := by
  have hp : ∀ r ∈ [({ anchor := .host, text := bs%"ads.com^" } : RuleText), { text := bs%"&b=", options := some bs%"domain=~x.com" }], plainRule r = true := by
    decide +kernel
  have hp1 : ∀ r ∈ [({ anchor := .host, text := bs%"ads.com^" } : RuleText)], plainRule r = true := fun r hr => hp r (List.mem_append_left _ hr)
  have hA : Lists E bs%"||ads.com^" [{ anchor := .host, text := bs%"ads.com^" }] := lists_rules (rs := [_]) (plainRules_sound hp1) (by simp)
  have hB : Lists E bs%"||ads.com^\n&b=$domain=~x.com" ([{ anchor := .host, text := bs%"ads.com^" }] ++ [{ text := bs%"&b=", options := some bs%"domain=~x.com" }]) :=
    lists_rules (rs := [_, _]) (plainRules_sound hp) (by simp)
  have hC : Lists E bs%"&b=$domain=~x.com\n||ads.com^" [{ text := bs%"&b=", options := some bs%"domain=~x.com" }, { anchor := .host, text := bs%"ads.com^" }] :=
    lists_rules (rs := [_, _]) (plainRules_sound fun r hr => hp r (by simp only [List.mem_cons, List.not_mem_nil, or_false] at hr ⊢; exact hr.symm)) (by simp)
  have hq := plainRules_askable (E := E) hroll hp exAds_web
  have h1 : Finds E bs%"||ads.com^" false [] exAds true := by
    obtain ⟨b, h1, h2⟩ := C105_same_answer hA (fun r hr dl h => h.2.1 ((by decide +kernel : ∀ r ∈ [({ anchor := .host, text := bs%"ads.com^" } : RuleText)], r.HostOnly) r hr))
      false [] (askable_subset hq fun r hr => List.mem_append_left _ hr)
    have : b = true := answers_unique h1 (answers_compared (v := true) (r := { anchor := .host, text := bs%"ads.com^" }) hroll (hp1 _ (by simp)) rfl
      (.inr (by decide +kernel)) (by decide +kernel) (by decide +kernel) exAds_web (by decide +kernel))
    exact this ▸ h2
  have h2 := C105_more_rules hA hB (by simp) false [] exAds_web hq.safe h1
  refine ⟨h1, h2, ?_⟩
  obtain ⟨b, h3, h4⟩ := C105_order hB hC (fun r => by simp only [List.cons_append, List.nil_append, List.mem_cons, List.not_mem_nil, or_false]; exact Or.comm) false [] exAds_web hq.safe
    (fun r hr r' hr' hh hh' _ _ _ => by
      simp only [List.cons_append, List.nil_append, List.mem_cons, List.not_mem_nil, or_false] at hr hr'
      rcases hr with rfl | rfl
      · rcases hr' with rfl | rfl
        · rfl
        · exact absurd hh'.1 (by decide)
      · exact absurd hh.1 (by decide))
  exact finds_unique h3 h2 ▸ h4

/-- … and lets it through if an exception does. -/
example (E : Env) (hroll : ∀ url, E.fp.rolls url) : Finds E bs%"pixels\n@@||ads.com^$image" false [] exAds false := by
  have hp : ∀ r ∈ [({ text := bs%"pixels" } : RuleText), exNoImages], plainRule r = true := by decide +kernel
  have hp1 : ∀ r ∈ [({ text := bs%"pixels" } : RuleText)], plainRule r = true := by decide +kernel
  have hA : Lists E bs%"pixels" [{ text := bs%"pixels" }] := lists_rules (rs := [_]) (plainRules_sound hp1) (by simp)
  have hB : Lists E bs%"pixels\n@@||ads.com^$image" ([{ text := bs%"pixels" }] ++ [exNoImages]) := lists_rules (rs := [_, _]) (plainRules_sound hp) (by simp)
  have hq := plainRules_askable (E := E) hroll hp exAds_web
  refine C105_more_exceptions hA hB (fun r hr => by rw [List.mem_singleton.1 hr]; rfl) false [] exAds_web hq.safe ?_
  obtain ⟨b, h1, h2⟩ := C105_same_answer hA (fun r hr dl h => by
      rw [List.mem_singleton.1 hr] at h
      exact absurd h.1 (by rw [(by decide +kernel : ({ text := bs%"pixels" } : RuleText).value bs%"domain=" = none)]; simp))
    false [] (askable_subset hq fun r hr => List.mem_append_left _ hr)
  have : b = false := answers_unique h1 (answers_compared (v := false) (r := { text := bs%"pixels" }) hroll (hp1 _ (by simp)) rfl
    (.inl (by decide +kernel)) (by decide +kernel) (by decide +kernel) exAds_web (by decide +kernel))
  exact this ▸ h2

end AdBlock
