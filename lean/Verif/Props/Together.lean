import Verif.Props.Pages
/-
Several lists together, and the rules of a list one by one.
-/
namespace AdBlock
open Spec

theorem independent_subset {bad : List Bytes} {rs rs' : List RuleText} {q : Request} (h : Independent bad rs q) (hs : ∀ r ∈ rs', r ∈ rs) :
    Independent bad rs' q :=
  ⟨fun r hr r' hr' => h.hosts r (hs r hr) r' (hs r' hr'), fun r hr => h.pages r (hs r hr)⟩

/-- Whether a rule counts is then up to the rule and the request. -/
theorem independent_counted {bad : List Bytes} {rs : List RuleText} {q : Request} (h : Independent bad rs q) (hq : Spec.Comparable rs q)
    {r : RuleText} (hr : r ∈ rs) {tags : List Bytes} (ha : r.AppliesTo tags q) : Counted bad rs q r ↔
      (r.HostOnly → r.hostPart = q.host ∨ ch%'.' ∈ r.hostPart) ∧ ((∃ dl, ByDomain bad r dl ∧ negative dl = []) → q.domain ≠ none) := by
  rw [counted_gate]
  constructor
  · rintro ⟨h1, h2, -⟩
    exact ⟨fun hh => (h1 hh).2, h2⟩
  · rintro ⟨h1, h2⟩
    refine ⟨fun hh => ⟨?_, h1 hh⟩, h2, ?_⟩
    · obtain ⟨r', before, after, h3, h4, h5, h6, h7⟩ := first_hostRule hr hh
      have hr' : r' ∈ rs := by rw [h3]; simp
      have : r = r' := h.hosts r hr r' hr' hh h4 h5.symm h6.symm (applies_host hq hr hh ha)
      exact ⟨before, after, this ▸ h3, h7⟩
    · rintro - ⟨x, hx, -, hs, dl, h3, h4, d, h5, y, hy, h6, -⟩
      exact h.pages x hx hs dl h3 h4 d h5 y hy h6

/-- What counts and applies in a part of a list does so in the list. -/
theorem independent_applies {E : Env} {rs part : List RuleText} {q : Request} (h : Independent E.bad rs q) (hq : Spec.Comparable rs q)
    (hs : ∀ r ∈ part, r ∈ rs) {tags : List Bytes} {r : RuleText} (hr : r ∈ part) :
    (Counted E.bad part q r ∧ r.AppliesTo tags q) ↔ (Counted E.bad rs q r ∧ r.AppliesTo tags q) := by
  refine and_congr_left fun ha => ?_
  rw [independent_counted h hq (hs r hr) ha,
    independent_counted (independent_subset h hs) ⟨fun x hx => hq.inBounds x (hs x hx)⟩ hr ha]

/-- The answers to a request of two lists, and of both together. -/
theorem together {E : Env} {A B C : Bytes} {rs rs' : List RuleText} (hA : Lists E A rs) (hB : Lists E B rs') (hC : Lists E C (rs ++ rs'))
    {q : Request} (hi : Independent E.bad (rs ++ rs') q) (preserve : Bool) (tags : List Bytes) (hq : Askable E (rs ++ rs') q) :
    ∃ a b c, Answers E A preserve tags q a ∧ Answers E B preserve tags q b ∧ Answers E C preserve tags q c ∧ ∃ x x' e e' : Prop,
      (a = true ↔ x ∧ ¬ e) ∧ (b = true ↔ x' ∧ ¬ e') ∧ (c = true ↔ (x ∨ x') ∧ ¬ (e ∨ e')) ∧
      ((∀ r ∈ rs ++ rs', r.exception = false) → ¬ (e ∨ e')) := by
  have hl : ∀ r ∈ rs, r ∈ rs ++ rs' := fun _ hr => List.mem_append_left _ hr
  have hr : ∀ r ∈ rs', r ∈ rs ++ rs' := fun _ hr => List.mem_append_right _ hr
  obtain ⟨a, h1, h2⟩ := answers_iff hA preserve tags (askable_subset hq hl)
  obtain ⟨b, h3, h4⟩ := answers_iff hB preserve tags (askable_subset hq hr)
  obtain ⟨c, h5, h6⟩ := answers_iff hC preserve tags hq
  have e1 : ∀ s, (∃ r ∈ rs, r.exception = s ∧ Counted E.bad rs q r ∧ r.AppliesTo tags q) ↔
      ∃ r ∈ rs, r.exception = s ∧ Counted E.bad (rs ++ rs') q r ∧ r.AppliesTo tags q := fun s =>
    exists_congr fun r => and_congr_right fun hm => and_congr_right fun _ => independent_applies hi hq.safe hl hm
  have e2 : ∀ s, (∃ r ∈ rs', r.exception = s ∧ Counted E.bad rs' q r ∧ r.AppliesTo tags q) ↔
      ∃ r ∈ rs', r.exception = s ∧ Counted E.bad (rs ++ rs') q r ∧ r.AppliesTo tags q := fun s =>
    exists_congr fun r => and_congr_right fun hm => and_congr_right fun _ => independent_applies hi hq.safe hr hm
  have e3 : ∀ s, (∃ r ∈ rs ++ rs', r.exception = s ∧ Counted E.bad (rs ++ rs') q r ∧ r.AppliesTo tags q) ↔
      (∃ r ∈ rs, r.exception = s ∧ Counted E.bad (rs ++ rs') q r ∧ r.AppliesTo tags q) ∨
      ∃ r ∈ rs', r.exception = s ∧ Counted E.bad (rs ++ rs') q r ∧ r.AppliesTo tags q := by
    intro s
    constructor
    · rintro ⟨r, hm, h⟩
      rcases List.mem_append.1 hm with hm | hm
      · exact .inl ⟨r, hm, h⟩
      · exact .inr ⟨r, hm, h⟩
    · rintro (⟨r, hm, h⟩ | ⟨r, hm, h⟩)
      · exact ⟨r, hl r hm, h⟩
      · exact ⟨r, hr r hm, h⟩
  rw [e1, e1] at h2
  rw [e2, e2] at h4
  rw [e3, e3] at h6
  refine ⟨a, b, c, h1, h3, h5, _, _, _, _, h2, h4, h6, ?_⟩
  rintro hno (⟨r, hm, he, -⟩ | ⟨r, hm, he, -⟩)
  · exact absurd ((hno r (hl r hm)).symm.trans he) (by simp)
  · exact absurd ((hno r (hr r hm)).symm.trans he) (by simp)

/-- **C96**, as far as it holds: two lists together block a request which each of them blocks, ... -/
theorem C96_both_partial {E : Env} {A B C : Bytes} {rs rs' : List RuleText} (hA : Lists E A rs) (hB : Lists E B rs') (hC : Lists E C (rs ++ rs'))
    {q : Request} (hi : Independent E.bad (rs ++ rs') q) {preserve : Bool} {tags : List Bytes} (hq : Askable E (rs ++ rs') q)
    (ha : Answers E A preserve tags q true) (hb : Answers E B preserve tags q true) : Answers E C preserve tags q true := by
  obtain ⟨a, b, c, h1, h2, h3, x, x', e, e', h4, h5, h6, -⟩ := together hA hB hC hi preserve tags hq
  have h7 := h4.1 (answers_unique h1 ha)
  have h8 := h5.1 (answers_unique h2 hb)
  have : c = true := h6.2 ⟨.inl h7.1, fun h => h.elim h7.2 h8.2⟩
  exact this ▸ h3

/-- ... but none which neither of them blocks; -/
theorem C96_neither_partial {E : Env} {A B C : Bytes} {rs rs' : List RuleText} (hA : Lists E A rs) (hB : Lists E B rs') (hC : Lists E C (rs ++ rs'))
    {q : Request} (hi : Independent E.bad (rs ++ rs') q) {preserve : Bool} {tags : List Bytes} (hq : Askable E (rs ++ rs') q)
    (ha : Answers E A preserve tags q false) (hb : Answers E B preserve tags q false) : Answers E C preserve tags q false := by
  obtain ⟨a, b, c, h1, h2, h3, x, x', e, e', h4, h5, h6, -⟩ := together hA hB hC hi preserve tags hq
  cases c with
  | false => exact h3
  | true =>
    exfalso
    obtain ⟨h7, h8⟩ := h6.1 rfl
    rcases h7 with h7 | h7
    · exact absurd (answers_unique ha (h4.2 ⟨h7, fun h => h8 (.inl h)⟩ ▸ h1)) (by simp)
    · exact absurd (answers_unique hb (h5.2 ⟨h7, fun h => h8 (.inr h)⟩ ▸ h2)) (by simp)

/-- and if there are no exceptions in them, they block together what one of them blocks. -/
theorem C96_either_partial {E : Env} {A B C : Bytes} {rs rs' : List RuleText} (hA : Lists E A rs) (hB : Lists E B rs') (hC : Lists E C (rs ++ rs'))
    {q : Request} (hi : Independent E.bad (rs ++ rs') q) (hno : ∀ r ∈ rs ++ rs', r.exception = false) {preserve : Bool} {tags : List Bytes}
    (hq : Askable E (rs ++ rs') q) :
    Answers E C preserve tags q true ↔ Answers E A preserve tags q true ∨ Answers E B preserve tags q true := by
  obtain ⟨a, b, c, h1, h2, h3, x, x', e, e', h4, h5, h6, h7⟩ := together hA hB hC hi preserve tags hq
  have hne := h7 hno
  constructor
  · intro h
    rcases (h6.1 (answers_unique h3 h)).1 with hx | hx
    · exact .inl (h4.2 ⟨hx, fun h => hne (.inl h)⟩ ▸ h1)
    · exact .inr (h5.2 ⟨hx, fun h => hne (.inr h)⟩ ▸ h2)
  · intro h
    have : c = true := by
      rw [h6]
      refine ⟨?_, hne⟩
      rcases h with h | h
      · exact .inl (h4.1 (answers_unique h1 h)).1
      · exact .inr (h5.1 (answers_unique h2 h)).1
    exact this ▸ h3

/-- **C96** for any number of lists. -/
theorem C96_several_partial {E : Env} {parts : List (Bytes × List RuleText)} {C : Bytes} (hp : ∀ p ∈ parts, Lists E p.1 p.2)
    (hC : Lists E C (parts.flatMap Prod.snd)) {q : Request} (hi : Independent E.bad (parts.flatMap Prod.snd) q) (preserve : Bool)
    (tags : List Bytes) (hq : Askable E (parts.flatMap Prod.snd) q) :
    (parts ≠ [] → (∀ p ∈ parts, Answers E p.1 preserve tags q true) → Answers E C preserve tags q true) ∧
    ((∀ p ∈ parts, Answers E p.1 preserve tags q false) → Answers E C preserve tags q false) ∧
    ((∀ p ∈ parts, ∀ r ∈ p.2, r.exception = false) →
      (Answers E C preserve tags q true ↔ ∃ p ∈ parts, Answers E p.1 preserve tags q true)) := by
  have hsub : ∀ p ∈ parts, ∀ r ∈ p.2, r ∈ parts.flatMap Prod.snd := fun p hm r hr => List.mem_flatMap.2 ⟨p, hm, hr⟩
  have hpart : ∀ p ∈ parts, ∃ b, Answers E p.1 preserve tags q b ∧ (b = true ↔
      (∃ r ∈ p.2, r.exception = false ∧ Counted E.bad (parts.flatMap Prod.snd) q r ∧ r.AppliesTo tags q) ∧
      ¬ ∃ r ∈ p.2, r.exception = true ∧ Counted E.bad (parts.flatMap Prod.snd) q r ∧ r.AppliesTo tags q) := by
    intro p hm
    obtain ⟨b, h1, h2⟩ := answers_iff (hp p hm) preserve tags (askable_subset hq (hsub p hm))
    have e : ∀ s, (∃ r ∈ p.2, r.exception = s ∧ Counted E.bad p.2 q r ∧ r.AppliesTo tags q) ↔
        ∃ r ∈ p.2, r.exception = s ∧ Counted E.bad (parts.flatMap Prod.snd) q r ∧ r.AppliesTo tags q := fun s =>
      exists_congr fun r => and_congr_right fun hr => and_congr_right fun _ => independent_applies hi hq.safe (hsub p hm) hr
    rw [e, e] at h2
    exact ⟨b, h1, h2⟩
  obtain ⟨c, h3, h4⟩ := answers_iff hC preserve tags hq
  have hthis : ∀ p ∈ parts, (Answers E p.1 preserve tags q true ↔
      (∃ r ∈ p.2, r.exception = false ∧ Counted E.bad (parts.flatMap Prod.snd) q r ∧ r.AppliesTo tags q) ∧
      ¬ ∃ r ∈ p.2, r.exception = true ∧ Counted E.bad (parts.flatMap Prod.snd) q r ∧ r.AppliesTo tags q) := by
    intro p hm
    obtain ⟨b, h1, h2⟩ := hpart p hm
    exact ⟨fun h => h2.1 (answers_unique h1 h), fun h => h2.2 h ▸ h1⟩
  refine ⟨fun hne hall => ?_, fun hall => ?_, fun hno => ?_⟩
  · have : c = true := by
      rw [h4]
      constructor
      · obtain ⟨p, hm⟩ := List.exists_mem_of_ne_nil parts hne
        obtain ⟨⟨r, hr, h⟩, -⟩ := (hthis p hm).1 (hall p hm)
        exact ⟨r, hsub p hm r hr, h⟩
      · rintro ⟨r, hr, h⟩
        obtain ⟨p, hm, hr⟩ := List.mem_flatMap.1 hr
        exact ((hthis p hm).1 (hall p hm)).2 ⟨r, hr, h⟩
    exact this ▸ h3
  · cases c with
    | false => exact h3
    | true =>
      exfalso
      obtain ⟨⟨r, hr, h⟩, hno⟩ := h4.1 rfl
      obtain ⟨p, hm, hr⟩ := List.mem_flatMap.1 hr
      have := (hthis p hm).2 ⟨⟨r, hr, h⟩, fun ⟨x, hx, h'⟩ => hno ⟨x, hsub p hm x hx, h'⟩⟩
      exact absurd (answers_unique this (hall p hm)) (by simp)
  · have hnone : ¬ ∃ r ∈ parts.flatMap Prod.snd, r.exception = true ∧ Counted E.bad (parts.flatMap Prod.snd) q r ∧ r.AppliesTo tags q := by
      rintro ⟨r, hr, he, -⟩
      obtain ⟨p, hm, hr⟩ := List.mem_flatMap.1 hr
      exact absurd ((hno p hm r hr).symm.trans he) (by simp)
    constructor
    · intro h
      obtain ⟨⟨r, hr, h⟩, -⟩ := h4.1 (answers_unique h3 h)
      obtain ⟨p, hm, hr⟩ := List.mem_flatMap.1 hr
      exact ⟨p, hm, (hthis p hm).2 ⟨⟨r, hr, h⟩, fun ⟨x, hx, h'⟩ => hnone ⟨x, hsub p hm x hx, h'⟩⟩⟩
    · rintro ⟨p, hm, h⟩
      obtain ⟨⟨r, hr, h⟩, -⟩ := (hthis p hm).1 h
      exact h4.2 ⟨⟨r, hsub p hm r hr, h⟩, hnone⟩ ▸ h3

/-! ### rules one by one -/

/-- **C97**, as far as it holds: a list blocks a request exactly if one of its rules alone does, and no exception alone would without its `@@`. -/
theorem C97_one_by_one_partial {E : Env} {A : Bytes} {rs : List RuleText} (hA : Lists E A rs) {alone : RuleText → Bytes}
    (hr : ∀ r ∈ rs, Lists E (alone r) [asBlocking r]) {q : Request} (hi : Independent E.bad rs q) (preserve : Bool) (tags : List Bytes)
    (hq : Askable E rs q) : Answers E A preserve tags q true ↔
      (∃ r ∈ rs, r.exception = false ∧ Answers E (alone r) preserve tags q true) ∧
      ¬ ∃ r ∈ rs, r.exception = true ∧ Answers E (alone r) preserve tags q true := by
  obtain ⟨b, h1, h2⟩ := answers_iff hA preserve tags hq
  have key : ∀ r ∈ rs, (Counted E.bad rs q r ∧ r.AppliesTo tags q) ↔ Answers E (alone r) preserve tags q true := by
    intro r hm
    have hq' : Askable E [asBlocking r] q := by
      refine ⟨hq.web, ⟨fun x hx => ?_⟩, fun hd x hx => ?_, hq.rolls⟩
      · rw [List.mem_singleton.1 hx]
        exact hq.safe.inBounds r hm
      · rw [List.mem_singleton.1 hx]
        exact hq.empty hd r hm
    have hi' : Independent E.bad [asBlocking r] q := by
      refine ⟨fun x hx y hy _ _ _ _ _ => (List.mem_singleton.1 hx).trans (List.mem_singleton.1 hy).symm, fun x hx => ?_⟩
      rw [List.mem_singleton.1 hx]
      exact hi.pages r hm
    obtain ⟨v, h3, h4⟩ := answers_iff (hr r hm) preserve tags hq'
    have h5 : v = true ↔ (Counted E.bad rs q r ∧ r.AppliesTo tags q) := by
      rw [h4]
      constructor
      · rintro ⟨⟨x, hx, -, hc, ha⟩, -⟩
        rw [List.mem_singleton.1 hx] at hc ha
        exact ⟨(independent_counted hi hq.safe hm ha).2 ((independent_counted hi' hq'.safe (List.mem_singleton.2 rfl) ha).1 hc), ha⟩
      · rintro ⟨hc, ha⟩
        refine ⟨⟨asBlocking r, by simp, rfl, ?_, ha⟩, ?_⟩
        · exact (independent_counted hi' hq'.safe (List.mem_singleton.2 rfl) (tags := tags) ha).2 ((independent_counted hi hq.safe hm ha).1 hc)
        · rintro ⟨x, hx, he, -⟩
          rw [List.mem_singleton.1 hx] at he
          cases he
    rw [← h5]
    exact ⟨fun h => h ▸ h3, fun h => answers_unique h3 h⟩
  have hsame : ∀ s, (∃ r ∈ rs, r.exception = s ∧ Counted E.bad rs q r ∧ r.AppliesTo tags q) ↔
      ∃ r ∈ rs, r.exception = s ∧ Answers E (alone r) preserve tags q true := fun s =>
    exists_congr fun r => and_congr_right fun hm => and_congr_right fun _ => key r hm
  rw [hsame, hsame] at h2
  rw [← h2]
  exact ⟨fun h => answers_unique h1 h, fun h => h ▸ h1⟩

/-! ### counterexamples -/

def exAdsText : RuleText := { text := bs%"ads" }
def exNoScripts : RuleText := { exception := true, anchor := .host, text := bs%"ads.com^", options := some bs%"script" }
def exNoImages : RuleText := { exception := true, anchor := .host, text := bs%"ads.com^", options := some bs%"image" }

theorem exNo_applies (tags : List Bytes) : ¬ exNoScripts.AppliesTo tags exAds ∧ exNoImages.AppliesTo tags exAds ∧ exAdsText.AppliesTo tags exAds := by
  rw [applies_compared (v := false) (by decide +kernel) exAds_web (by decide +kernel) (by decide +kernel) tags,
    applies_compared (v := true) (by decide +kernel) exAds_web (by decide +kernel) (by decide +kernel) tags,
    applies_compared (v := true) (by decide +kernel) exAds_web (by decide +kernel) (by decide +kernel) tags]
  simp

theorem exAdsText_counted (bad : List Bytes) (rs : List RuleText) : Counted bad rs exAds exAdsText := by
  have hd : exAdsText.value bs%"domain=" = none := by decide +kernel
  exact ⟨fun hh => (nomatch hh.1), fun dl h => absurd (hd.symm.trans h.1) (by simp), fun dl h => absurd (hd.symm.trans h.1) (by simp)⟩

theorem exNoImages_hostOnly : exNoScripts.HostOnly ∧ exNoImages.HostOnly := by decide +kernel

/-- **C96** fails for rules that consist of a host (C52): the two exceptions alone block nothing, and `ads` with the exception for images no image,
but all three together do: of the two exceptions only the first is kept. -/
theorem C96_neither_counterexample {E : Env} (hroll : ∀ url, E.fp.rolls url) :
    Answers E bs%"@@||ads.com^$script" false [] exAds false ∧ Answers E bs%"ads\n@@||ads.com^$image" false [] exAds false ∧
    Answers E bs%"@@||ads.com^$script\nads\n@@||ads.com^$image" false [] exAds true := by
  have hp1 : ∀ r ∈ [exNoScripts], plainRule r = true := by decide +kernel
  have hp2 : ∀ r ∈ [exAdsText, exNoImages], plainRule r = true := by decide +kernel
  have hp3 : ∀ r ∈ [exNoScripts, exAdsText, exNoImages], plainRule r = true := by decide +kernel
  have ha := exNo_applies []
  refine ⟨?_, ?_, ?_⟩
  · obtain ⟨b, h1, h2⟩ := answers_iff (lists_rules (E := E) (plainRules_sound hp1) (by simp)) false [] (plainRules_askable hroll hp1 exAds_web)
    have : b = false := by
      rw [← Bool.not_eq_true, h2]
      rintro ⟨⟨r, hr, he, -⟩, -⟩
      rw [List.mem_singleton.1 hr] at he
      cases he
    exact this ▸ h1
  · obtain ⟨b, h1, h2⟩ := answers_iff (lists_rules (E := E) (plainRules_sound hp2) (by simp)) false [] (plainRules_askable hroll hp2 exAds_web)
    have : b = false := by
      rw [← Bool.not_eq_true, h2]
      rintro ⟨-, hno⟩
      refine hno ⟨exNoImages, by simp, rfl, reliable_counted ⟨fun _ => ⟨by decide +kernel, [exAdsText], [], rfl, ?_⟩, .inl (by decide +kernel)⟩ _, ha.2.1⟩
      intro r hr
      rw [List.mem_singleton.1 hr]
      exact fun h => (nomatch h.1.1)
    exact this ▸ h1
  · obtain ⟨b, h1, h2⟩ := answers_iff (lists_rules (E := E) (plainRules_sound hp3) (by simp)) false [] (plainRules_askable hroll hp3 exAds_web)
    have : b = true := by
      rw [h2]
      refine ⟨⟨exAdsText, by simp, rfl, exAdsText_counted _ _, ha.2.2⟩, ?_⟩
      rintro ⟨r, hr, he, hc, hap⟩
      simp only [List.mem_cons, List.not_mem_nil, or_false] at hr
      rcases hr with rfl | rfl | rfl
      · exact ha.1 hap
      · cases he
      · obtain ⟨before, after, h3, h4⟩ := (hc.host exNoImages_hostOnly.2).1
        cases before with
        | nil =>
          exact absurd (congrArg RuleText.options (List.cons.inj h3).1) (by decide)
        | cons x before =>
          have := (List.cons.inj h3).1
          exact h4 x (by simp) (this ▸ ⟨exNoImages_hostOnly.1, rfl, rfl⟩)
    exact this ▸ h1

def exImages : RuleText := { anchor := .host, text := bs%"ads.com^", options := some bs%"image" }

/-- an image of `ads.com` on a page of `y.com` -/
def exAdsOnY : Request := { exOnY with host := bs%"ads.com" }

theorem exAdsOnY_web : exAdsOnY.Web := ⟨exOnY_web.scheme, ⟨by decide +kernel, by decide +kernel⟩, exOnY_web.rest, by decide +kernel, exOnY_web.type⟩

theorem exAdsOnY_applies (tags : List Bytes) : ¬ exNotY.AppliesTo tags exAdsOnY ∧ ¬ exScripts.AppliesTo tags exAdsOnY ∧
    exNotX.AppliesTo tags exAdsOnY ∧ exImages.AppliesTo tags exAdsOnY := by
  rw [applies_compared (v := false) (by decide +kernel) exAdsOnY_web (by decide +kernel) (by decide +kernel) tags,
    applies_compared (v := false) (by decide +kernel) exAdsOnY_web (by decide +kernel) (by decide +kernel) tags,
    applies_compared (v := true) (by decide +kernel) exAdsOnY_web (by decide +kernel) (by decide +kernel) tags,
    applies_compared (v := true) (by decide +kernel) exAdsOnY_web (by decide +kernel) (by decide +kernel) tags]
  simp

/-- **C96** fails if the rules of each list get in the way of those of the other by which it blocks the request. -/
theorem C96_both_counterexample {E : Env} (hroll : ∀ url, E.fp.rolls url) :
    Answers E bs%"||ads.com^$script\n&b=$domain=~x.com" false [] exAdsOnY true ∧
    Answers E bs%"||ads.com^$image\n&a=$domain=~y.com" false [] exAdsOnY true ∧
    Answers E bs%"||ads.com^$script\n&b=$domain=~x.com\n||ads.com^$image\n&a=$domain=~y.com" false [] exAdsOnY false := by
  have hp1 : ∀ r ∈ [exScripts, exNotX], plainRule r = true := by decide +kernel
  have hp2 : ∀ r ∈ [exImages, exNotY], plainRule r = true := by decide +kernel
  have hp3 : ∀ r ∈ [exScripts, exNotX, exImages, exNotY], plainRule r = true := by decide +kernel
  obtain ⟨ha1, ha2, ha3, ha4⟩ := exAdsOnY_applies []
  have hh : exScripts.HostOnly ∧ exImages.HostOnly := by decide +kernel
  refine ⟨?_, ?_, ?_⟩
  · obtain ⟨b, h1, h2⟩ := answers_iff (lists_rules (E := E) (plainRules_sound hp1) (by simp)) false [] (plainRules_askable hroll hp1 exAdsOnY_web)
    have : b = true := by
      rw [h2]
      refine ⟨⟨exNotX, by simp, rfl, counted_gate.2 ⟨fun hh => (nomatch hh.1), fun _ => by simp [exAdsOnY, exOnY, exRequest], fun _ => ?_⟩, ha3⟩, ?_⟩
      · rintro ⟨r, hr, -, hs, dl, h3, h4⟩
        simp only [List.mem_cons, List.not_mem_nil, or_false] at hr
        rcases hr with rfl | rfl
        · exact h3.2.1 hh.1
        · exact not_exGate (bad := E.bad) (rs := [exNotX]) (e := false) (fun r hr _ => List.mem_singleton.1 hr)
            ⟨exNotX, by simp, rfl, hs, dl, h3, h4⟩
      · rintro ⟨r, hr, he, -⟩
        simp only [List.mem_cons, List.not_mem_nil, or_false] at hr
        rcases hr with rfl | rfl <;> cases he
    exact this ▸ h1
  · obtain ⟨b, h1, h2⟩ := answers_iff (lists_rules (E := E) (plainRules_sound hp2) (by simp)) false [] (plainRules_askable hroll hp2 exAdsOnY_web)
    have : b = true := by
      rw [h2]
      refine ⟨⟨exImages, by simp, rfl, reliable_counted ⟨fun _ => ⟨by decide +kernel, [], [exNotY], rfl, by simp⟩, .inl (by decide +kernel)⟩ _, ha4⟩, ?_⟩
      rintro ⟨r, hr, he, -⟩
      simp only [List.mem_cons, List.not_mem_nil, or_false] at hr
      rcases hr with rfl | rfl <;> cases he
    exact this ▸ h1
  · obtain ⟨b, h1, h2⟩ := answers_iff (lists_rules (E := E) (plainRules_sound hp3) (by simp)) false [] (plainRules_askable hroll hp3 exAdsOnY_web)
    have : b = false := by
      rw [← Bool.not_eq_true, h2]
      rintro ⟨⟨r, hr, -, hc, hap⟩, -⟩
      simp only [List.mem_cons, List.not_mem_nil, or_false] at hr
      rcases hr with rfl | rfl | rfl | rfl
      · exact ha2 hap
      · exact (counted_gate.1 hc).2.2 ⟨_, ((exNot_byDomain E.bad false).1 _).2 rfl, by decide +kernel⟩ (exGate (e := false) (by simp [exNotY]))
      · obtain ⟨before, after, h3, h4⟩ := (hc.host hh.2).1
        cases before with
        | nil => exact absurd (congrArg RuleText.options (List.cons.inj h3).1) (by decide)
        | cons x before => exact h4 x (by simp) ((List.cons.inj h3).1 ▸ ⟨hh.1, rfl, rfl⟩)
      · exact ha1 hap
    exact this ▸ h1

/-! ### examples -/

/-- Rules without domains, none of which consists of a host, are independent of each other. -/
theorem independent_plain {bad : List Bytes} {rs : List RuleText} (hh : ∀ r ∈ rs, ¬ r.HostOnly) (hd : ∀ r ∈ rs, r.value bs%"domain=" = none)
    (q : Request) : Independent bad rs q :=
  ⟨fun r hr _ _ h => absurd h (hh r hr), fun r hr _ dl h => absurd ((hd r hr).symm.trans h.1) (by simp)⟩

def exBan : RuleText := { text := bs%"bann" }
def exNoBanner : RuleText := { exception := true, text := bs%"banners" }
def exAnner : RuleText := { text := bs%"anner", options := some bs%"script" }

theorem exLists_facts : (∀ r ∈ [exBan, exNoBanner] ++ [exAnner], plainRule r = true) ∧ (∀ r ∈ [exBan, exNoBanner] ++ [exAnner], ¬ r.HostOnly) ∧
    (∀ r ∈ [exBan, exNoBanner] ++ [exAnner], r.value bs%"domain=" = none) := by decide +kernel

/-- **C96**, an example: both lists block the script, -/
example {E : Env} (hroll : ∀ url, E.fp.rolls url) : Answers E bs%"bann\n@@banners\nanner$script" false [] exBanner true := by
  obtain ⟨hp, hh, hd⟩ := exLists_facts
  have hp1 : ∀ r ∈ [exBan, exNoBanner], plainRule r = true := by decide +kernel
  have hp2 : ∀ r ∈ [exAnner], plainRule r = true := by decide +kernel
  have hA : Lists E bs%"bann\n@@banners" [exBan, exNoBanner] := lists_rules (plainRules_sound hp1) (by simp)
  refine C96_both_partial hA (lists_rules (plainRules_sound hp2) (by simp)) (lists_rules (plainRules_sound hp) (by simp))
    (independent_plain hh hd _) (plainRules_askable hroll hp exBanner_web) ?_
    (answers_compared (v := true) hroll (by decide +kernel) rfl (.inl (by decide +kernel)) (by decide +kernel) (by decide +kernel) exBanner_web (by decide +kernel))
  refine (C97_one_by_one_partial hA (alone := fun r => listText [(asBlocking r).line]) (fun r hr => lists_rules (rs := [asBlocking r]) (plainRules_sound fun x hx => ?_) (by simp))
    (independent_subset (independent_plain hh hd _) (by simp +contextual)) false [] (plainRules_askable hroll hp1 exBanner_web)).2 ⟨⟨exBan, by simp, rfl, ?_⟩, ?_⟩
  · rw [List.mem_singleton.1 hx]
    exact (by decide +kernel : ∀ r ∈ [exBan, exNoBanner], plainRule (asBlocking r) = true) r hr
  · exact answers_compared (v := true) hroll (by decide +kernel) rfl (.inl (by decide +kernel)) (by decide +kernel) (by decide +kernel) exBanner_web (by decide +kernel)
  · rintro ⟨r, hr, he, h⟩
    simp only [List.mem_cons, List.not_mem_nil, or_false] at hr
    rcases hr with rfl | rfl
    · cases he
    · exact absurd (answers_unique h (answers_compared (v := false) (r := asBlocking exNoBanner) hroll (by decide +kernel) rfl (.inl (by decide +kernel))
        (by decide +kernel) (by decide +kernel) exBanner_web (by decide +kernel))) (by simp)

/-- **C97** fails for such rules (the second alone blocks the image), ... -/
theorem C97_host_counterexample {E : Env} (hroll : ∀ url, E.fp.rolls url) : Answers E bs%"||ads.com^$image" false [] exAds true ∧
    Answers E bs%"||ads.com^$script\n||ads.com^$image" false [] exAds false :=
  C84_host_counterexample hroll

/-- ... and for rules without a fingerprint which only exclude domains (the first alone blocks the request). -/
theorem C97_excluding_counterexample {E : Env} (hroll : ∀ url, E.fp.rolls url) : Answers E bs%"&b=$domain=~x.com" false [] exOnY true ∧
    Answers E bs%"&b=$domain=~x.com\n&a=$domain=~y.com" false [] exOnY false :=
  C84_excluding_counterexample hroll

end AdBlock
