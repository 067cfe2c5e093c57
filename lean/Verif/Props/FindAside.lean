import Verif.Props.FindUser
/-
Options aside and tags for `findMatchingFilters` (C113): the laws C53 and C30 for it.
-/
namespace AdBlock
open Spec

theorem foundAlike_aside {tags : List Bytes} {q : Request} {r r' : RuleText} (h : SameButAside r r')
    (ht : r'.TagEnabled tags ↔ r.TagEnabled tags) : FoundAlike tags q r r' :=
  ⟨(sameApart_fields h).1, sameApart_hostOnly h, fun _ => sameApart_hostPart h, sameApart_applies h ht q, sameApart_readsPast h q⟩

/-- **C113** options which do not say for which requests a rule is (`important`, `explicitcancel`, `redirect=`, and `first-party`)
make no difference to `findMatchingFilters` (see C53). -/
theorem C113_aside {E : Env} {A B : Bytes} {rs : List RuleText} {φ : RuleText → RuleText} (hA : Lists E A rs) (hB : Lists E B (rs.map φ))
    (hφ : ∀ r ∈ rs, SameApart r (φ r)) (preserve preserve' : Bool) (tags : List Bytes) {q : Request} (hq : q.Web)
    (hs : Spec.Comparable rs q) : ∃ b, Finds E A preserve tags q b ∧ Finds E B preserve' tags q b := by
  refine finds_alike hA hB (fun r hr => foundAlike_aside (sameButAside_apart (hφ r hr)) ?_) preserve preserve' hq hs
  unfold RuleText.TagEnabled
  rw [value_filter (fun _ ho => not_aside_of_prefix (k := bs%"tag=") (by simp) ho) (hφ r hr).options]

/-- **C113** with their tags enabled, tagged rules are as good for `findMatchingFilters` as rules without tags (see C30). -/
theorem C113_tags_enabled {E : Env} {A B : Bytes} {rs : List RuleText} {φ : RuleText → RuleText} (hA : Lists E A rs) (hB : Lists E B (rs.map φ))
    {tags : List Bytes} (hφ : ∀ r ∈ rs, φ r = r ∨
      (SameApartFromTag r (φ r) ∧ (φ r).value bs%"tag=" = none ∧ ∀ t, r.value bs%"tag=" = some t → t ∈ tags))
    (preserve preserve' : Bool) {q : Request} (hq : q.Web) (hs : Spec.Comparable rs q) :
    ∃ b, Finds E A preserve tags q b ∧ Finds E B preserve' tags q b := by
  refine finds_alike hA hB (fun r hr => ?_) preserve preserve' hq hs
  rcases hφ r hr with h | ⟨h, h1, h2⟩
  · rw [h]; exact foundAlike_aside ⟨rfl, rfl⟩ Iff.rfl
  · refine foundAlike_aside (sameButAside_tag h) ?_
    unfold RuleText.TagEnabled
    rw [h1]
    exact ⟨fun _ t ht => .inr (h2 t ht), fun _ t ht => nomatch ht⟩

/-- **C113** rules whose tags are not enabled can be left out, wherever they are in the list, unless they consist of a host (see C30; here
even if they only exclude domains). -/
theorem C113_tags_disabled_partial {E : Env} {A B : Bytes} {rs : List RuleText} {p : RuleText → Bool} (hA : Lists E A rs)
    (hB : Lists E B (rs.filter p)) {tags : List Bytes}
    (hp : ∀ r ∈ rs, p r = false → (∃ t, r.value bs%"tag=" = some t ∧ t ≠ [] ∧ t ∉ tags) ∧ ¬ r.HostOnly)
    (preserve preserve' : Bool) {q : Request} (hq : q.Web) (hs : Spec.Comparable rs q) :
    ∃ b, Finds E A preserve tags q b ∧ Finds E B preserve' tags q b := by
  have hs' : Spec.Comparable (rs.filter p) q := ⟨fun r hr => hs.inBounds r (List.mem_filter.1 hr).1⟩
  refine finds_same hA hB preserve preserve' hq hs hs' fun s => ⟨?_, ?_⟩
  · rintro ⟨r, hr, he, hc, ha⟩
    have hpr : p r = true := by
      cases h : p r with
      | true => rfl
      | false =>
        obtain ⟨⟨t, h1, h2, h3⟩, -⟩ := hp r hr h
        exact absurd (ha.2.2.2.1 t h1) (not_or.2 ⟨h2, h3⟩)
    refine ⟨r, List.mem_filter.2 ⟨hr, hpr⟩, he, fun hh => ?_, ha⟩
    obtain ⟨⟨before, after, h1, h2⟩, h3⟩ := hc hh
    exact ⟨⟨before.filter p, after.filter p, by rw [h1, List.filter_append, List.filter_cons_of_pos hpr],
      fun x hx => h2 x (List.mem_filter.1 hx).1⟩, h3⟩
  · rintro ⟨r, hr, he, hc, ha⟩
    obtain ⟨hr, hpr⟩ := List.mem_filter.1 hr
    refine ⟨r, hr, he, fun hh => ?_, ha⟩
    obtain ⟨⟨before, after, h1, h2⟩, h3⟩ := hc hh
    refine ⟨?_, h3⟩
    obtain ⟨l1, l2, h4, h5, h6⟩ := List.filter_eq_append_iff.1 h1
    obtain ⟨l3, l4, h7, h8, h9, h10⟩ := List.filter_eq_cons_iff.1 h6
    refine ⟨l1 ++ l3, l4, by rw [h4, h7]; simp, fun x hx hk => ?_⟩
    rcases List.mem_append.1 hx with hx | hx
    · cases h : p x with
      | true => exact h2 x (by rw [← h5]; exact List.mem_filter.2 ⟨hx, h⟩) hk
      | false => exact (hp x (by rw [h4]; simp [hx]) h).2 hk.1
    · exact (hp x (by rw [h4, h7]; simp [hx]) (by simpa using h8 x hx)).2 hk.1

/-- **C113** loading a list and then again some of its rules makes no difference to `findMatchingFilters` (see C51). -/
theorem C113_again {E : Env} {A B : Bytes} {rs again : List RuleText} (hA : Lists E A rs) (hB : Lists E B (rs ++ again))
    (preserve preserve' : Bool) (tags : List Bytes) {q : Request} (hq : q.Web) (hs : Spec.Comparable rs q) (hag : ∀ r ∈ again, r ∈ rs) :
    ∃ b, Finds E A preserve tags q b ∧ Finds E B preserve' tags q b := by
  have hin : ∀ r ∈ rs ++ again, r ∈ rs := fun r hr => (List.mem_append.1 hr).elim (fun h => h) (hag r)
  refine finds_same hA hB preserve preserve' hq hs ⟨fun r hr => hs.inBounds r (hin r hr)⟩ fun s => ⟨?_, ?_⟩
  · rintro ⟨r, hr, he, hc, ha⟩
    exact ⟨r, List.mem_append_left _ hr, he, hostCounted_append _ hc, ha⟩
  · rintro ⟨r, hr, he, hc, ha⟩
    refine ⟨r, hin r hr, he, fun hh => ?_, ha⟩
    obtain ⟨⟨before, after, h1, h2⟩, h3⟩ := hc hh
    refine ⟨?_, h3⟩
    rcases List.append_eq_append_iff.1 h1 with ⟨x, h4, h5⟩ | ⟨x, h4, h5⟩
    · exact absurd ⟨hh, rfl, rfl⟩ (h2 r (by rw [h4]; simp [hin r hr]))
    · cases x with
      | nil => exact absurd ⟨hh, rfl, rfl⟩ (h2 r (by rw [List.append_nil] at h4; rw [← h4]; exact hin r hr))
      | cons y x =>
        rw [List.cons_append, List.cons.injEq] at h5
        exact ⟨before, x, by rw [h4, h5.1], h2⟩

/-- **C113** fails for tagged rules that consist of a host: one whose tag is not enabled hides the others for the host (see C30). -/
theorem C113_tags_counterexample {E : Env} (hroll : ∀ url, E.fp.rolls url) : Finds E bs%"||ads.com^" false [] exAds true ∧
    Finds E bs%"||ads.com^$tag=x\n||ads.com^" false [] exAds false := by
  let r : RuleText := { anchor := .host, text := bs%"ads.com^" }
  let t : RuleText := { anchor := .host, text := bs%"ads.com^", options := some bs%"tag=x" }
  have hp : ∀ x ∈ [r], plainRule x = true := by decide +kernel
  have hp' : ∀ x ∈ [t, r], plainRule x = true := by decide +kernel
  refine ⟨finds_of_answers hroll hp (lists_rules (plainRules_sound hp) (by simp)) (by decide +kernel) exAds_web (C90_user_counterexample hroll).1, ?_⟩
  obtain ⟨b, h1, h2⟩ := finds_iff (lists_rules (E := E) (rs := [t, r]) (plainRules_sound hp') (by simp)) false [] exAds_web
    (plainRules_askable hroll hp' exAds_web).safe
  cases b with
  | false => exact h1
  | true =>
    obtain ⟨⟨x, hx, -, hc, ha⟩, -⟩ := h2.1 rfl
    have hne : x ≠ t := by
      rintro rfl
      exact absurd (ha.2.2.2.1 bs%"x" (by decide +kernel)) (by simp)
    have hxr : x = r := by simpa [hne] using hx
    subst hxr
    obtain ⟨⟨before, after, h3, h4⟩, -⟩ := hc (by decide +kernel)
    cases before with
    | nil => exact absurd (List.cons.inj h3).1.symm hne
    | cons y ys =>
      have := h4 y (by simp)
      rw [← (List.cons.inj h3).1] at this
      exact absurd (by decide +kernel) this

/-! ### examples -/

/-- **C113**, an example: the rules of the example as important ones, without their tags if those are enabled, and without those with
tags if they are not, and loaded twice. -/
example {E : Env} (hroll : ∀ url, E.fp.rolls url) {q : Request} (hq : q.Web) :
    (∃ b, Finds E exText true [bs%"track"] q b ∧ Finds E (listText ((exRules.map exLaw_important).map RuleText.line)) true [bs%"track"] q b) ∧
    (∃ b, Finds E exText true [bs%"track"] q b ∧ Finds E (listText ((exRules.map exLaw_untagged).map RuleText.line)) true [bs%"track"] q b) ∧
    (∃ b, Finds E exText true [] q b ∧
      Finds E (listText ((exRules.filter fun r => (r.value bs%"tag=").isNone).map RuleText.line)) true [] q b) ∧
    ∃ b, Finds E exText true [] q b ∧ Finds E (listText ((exRules ++ exRules).map RuleText.line)) true [] q b := by
  have hs := (exRules_askable hroll hq).safe
  refine ⟨C113_aside exLaw_lists (lists_rules exLaw_important_sound (by simp [exRules])) exLaw_important_same true true _ hq hs, ?_, ?_, ?_⟩
  · refine C113_tags_enabled exLaw_lists (lists_rules exLaw_untagged_sound (by simp [exRules])) ?_ true true hq hs
    intro r hr
    by_cases ht : r.value bs%"tag=" = none
    · exact .inl (if_pos ht)
    · refine .inr ⟨⟨?_, ?_⟩, ?_, ?_⟩
      · unfold exLaw_untagged; rw [if_neg ht]
      · exact (by decide +kernel : ∀ r ∈ exRules, (exLaw_untagged r).entries.filter (fun o => decide (¬ bs%"tag=" <+: RuleText.unsigned o)) =
          r.entries.filter (fun o => decide (¬ bs%"tag=" <+: RuleText.unsigned o))) r hr
      · exact (by decide +kernel : ∀ r ∈ exRules, (exLaw_untagged r).value bs%"tag=" = none) r hr
      · intro t h
        exact (by decide +kernel : ∀ r ∈ exRules, ∀ t ∈ (r.value bs%"tag=").toList, t ∈ [bs%"track"]) r hr t (by rw [h]; simp)
  · refine C113_tags_disabled_partial exLaw_lists (lists_rules (soundList_subset exSound fun r hr => (List.mem_filter.1 hr).1) (by decide +kernel)) ?_
      true true hq hs
    intro r hr hp
    have h1 : ∀ r ∈ exRules, (r.value bs%"tag=").isNone = false → r.value bs%"tag=" = some bs%"track" ∧ ¬ r.HostOnly := by decide +kernel
    exact ⟨⟨_, (h1 r hr hp).1, by simp, by simp⟩, (h1 r hr hp).2⟩
  · exact C113_again exLaw_lists (lists_rules (soundList_subset exSound fun r hr => (List.mem_append.1 hr).elim id id) (by simp [exRules]))
      true true [] hq hs fun r hr => hr

end AdBlock
