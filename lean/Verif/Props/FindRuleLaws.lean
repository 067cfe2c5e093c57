import Verif.Props.FindLaws
import Verif.Props.Halves
import Verif.Props.HostForms
import Verif.Props.Redundant
import Verif.Props.SameTypes
/-
Ways to write rules which make no difference to `findMatchingFilters` (C113).
-/
namespace AdBlock
open Spec

theorem finds_same {E : Env} {A B : Bytes} {rs rs' : List RuleText} (hA : Lists E A rs) (hB : Lists E B rs') (preserve preserve' : Bool)
    {tags : List Bytes} {q : Request} (hq : q.Web) (hs : Spec.Comparable rs q) (hs' : Spec.Comparable rs' q)
    (h : ∀ s, (∃ r ∈ rs, r.exception = s ∧ HostCounted rs q r ∧ r.AppliesTo tags q) ↔
      ∃ r ∈ rs', r.exception = s ∧ HostCounted rs' q r ∧ r.AppliesTo tags q) :
    ∃ b, Finds E A preserve tags q b ∧ Finds E B preserve' tags q b := by
  obtain ⟨b, h1, h2⟩ := finds_iff hA preserve tags hq hs
  obtain ⟨b', h3, h4⟩ := finds_iff hB preserve' tags hq hs'
  have : b = b' := by
    rw [Bool.eq_iff_iff, h2, h4, h, h]
  exact ⟨b, h1, this ▸ h3⟩

/-- Two rules that are alike as far as `findMatchingFilters` and a request are concerned. -/
structure FoundAlike (tags : List Bytes) (q : Request) (r r' : RuleText) : Prop where
  exception : r'.exception = r.exception
  hostOnly : r'.HostOnly ↔ r.HostOnly
  hostPart : r.HostOnly → r'.hostPart = r.hostPart
  applies : r'.AppliesTo tags q ↔ r.AppliesTo tags q
  readsPast : r'.ReadsPast q ↔ r.ReadsPast q

theorem RuleAlike.found {bad tags : List Bytes} {q : Request} {r r' : RuleText} (h : RuleAlike bad tags q r r') : FoundAlike tags q r r' :=
  ⟨h.exception, h.hostOnly, h.hostPart, h.applies, h.readsPast⟩

theorem finds_alike {E : Env} {A B : Bytes} {rs : List RuleText} {φ : RuleText → RuleText} (hA : Lists E A rs) (hB : Lists E B (rs.map φ))
    {tags : List Bytes} {q : Request} (hφ : ∀ r ∈ rs, FoundAlike tags q r (φ r)) (preserve preserve' : Bool) (hq : q.Web)
    (hs : Spec.Comparable rs q) : ∃ b, Finds E A preserve tags q b ∧ Finds E B preserve' tags q b := by
  have hs' : Spec.Comparable (rs.map φ) q := by
    refine ⟨fun r hr => ?_⟩
    obtain ⟨x, hx, rfl⟩ := List.mem_map.1 hr
    rw [(hφ x hx).readsPast]
    exact hs.inBounds x hx
  have kind : ∀ {x r : RuleText}, x ∈ rs → r ∈ rs → r.HostOnly → (((φ x).HostOnly ∧ (φ x).exception = (φ r).exception ∧ (φ x).hostPart = (φ r).hostPart) ↔
      (x.HostOnly ∧ x.exception = r.exception ∧ x.hostPart = r.hostPart)) := by
    intro x r hx hr hh
    rw [(hφ x hx).hostOnly, (hφ r hr).hostPart hh, (hφ x hx).exception, (hφ r hr).exception]
    exact and_congr_right fun hh' => by rw [(hφ x hx).hostPart hh']
  refine finds_same hA hB preserve preserve' hq hs hs' fun s => ⟨?_, ?_⟩
  · rintro ⟨r, hr, he, hc, ha⟩
    refine ⟨φ r, List.mem_map.2 ⟨r, hr, rfl⟩, by rw [(hφ r hr).exception, he], fun hh => ?_, (hφ r hr).applies.2 ha⟩
    replace hh := (hφ r hr).hostOnly.1 hh
    obtain ⟨⟨before, after, h1, h2⟩, h3⟩ := hc hh
    rw [(hφ r hr).hostPart hh]
    refine ⟨⟨before.map φ, after.map φ, by rw [h1]; simp, fun x hx => ?_⟩, h3⟩
    obtain ⟨y, hy, rfl⟩ := List.mem_map.1 hx
    rw [← (hφ r hr).hostPart hh, kind (by rw [h1]; simp [hy]) hr hh]
    exact h2 y hy
  · rintro ⟨r, hr, he, hc, ha⟩
    by_cases hh : r.HostOnly
    · obtain ⟨⟨before, after, h1, h2⟩, h3⟩ := hc hh
      obtain ⟨b, l, h4, rfl, h5⟩ := List.map_eq_append_iff.1 h1
      obtain ⟨x, a, rfl, rfl, rfl⟩ := List.map_eq_cons_iff.1 h5
      have hx : x ∈ rs := by rw [h4]; simp
      replace hh := (hφ x hx).hostOnly.1 hh
      refine ⟨x, hx, by rw [← (hφ x hx).exception, he], fun _ => ⟨⟨b, a, h4, fun y hy => ?_⟩, ?_⟩, (hφ x hx).applies.1 ha⟩
      · rw [← kind (by rw [h4]; simp [hy]) hx hh]
        exact h2 _ (List.mem_map.2 ⟨y, hy, rfl⟩)
      · rw [← (hφ x hx).hostPart hh]
        exact h3
    · obtain ⟨x, hx, rfl⟩ := List.mem_map.1 hr
      exact ⟨x, hx, by rw [← (hφ x hx).exception, he], fun hh' => absurd ((hφ x hx).hostOnly.2 hh') hh, (hφ x hx).applies.1 ha⟩

theorem finds_replaced {E : Env} {A B : Bytes} {rs rs' : List RuleText} (hA : Lists E A rs) (hB : Lists E B rs') {tags : List Bytes}
    {q : Request} (h : Replaced E.bad tags q rs rs') (preserve preserve' : Bool) (hq : q.Web) (hs : Spec.Comparable rs q) :
    ∃ b, Finds E A preserve tags q b ∧ Finds E B preserve' tags q b := by
  have hs' : Spec.Comparable rs' q := by
    refine ⟨fun p hp hpast => ?_⟩
    obtain ⟨r, hr, rfl | ⟨parts, hg, hpp, -⟩⟩ := replaced_back h p hp
    · exact hs.inBounds p hr hpast
    · exact hs.inBounds r hr (hg.readsPast.2 ⟨p, hpp, hpast⟩)
  have counts : ∀ r, HostCounted rs' q r ↔ HostCounted rs q r := by
    intro r
    rw [hostCounted_hosts, hostCounted_hosts (rs := rs), replaced_hosts h]
  refine finds_same hA hB preserve preserve' hq hs hs' fun s => ⟨?_, ?_⟩
  · rintro ⟨r, hr, he, hc, ha⟩
    rcases replaced_forth h r hr with hr' | ⟨parts, hg, hin⟩
    · exact ⟨r, hr', he, (counts r).2 hc, ha⟩
    · obtain ⟨p, hp, hap⟩ := hg.applies.1 ha
      exact ⟨p, hin p hp, by rw [hg.exception p hp, he], fun hh => absurd hh (hg.hostOnly.2 p hp), hap⟩
  · rintro ⟨p, hp, he, hc, ha⟩
    obtain ⟨r, hr, rfl | ⟨parts, hg, hpp, -⟩⟩ := replaced_back h p hp
    · exact ⟨p, hr, he, (counts p).1 hc, ha⟩
    · exact ⟨r, hr, by rw [← hg.exception p hpp, he], fun hh => absurd hh hg.hostOnly.1, hg.applies.2 ⟨p, hpp, ha⟩⟩

/-! ### The claims -/

/-- **C113**: the order and repetition of options and domains make no difference to `findMatchingFilters` (see C81), … -/
theorem C113_order {E : Env} {A B : Bytes} {rs : List RuleText} {φ : RuleText → RuleText} (hA : Lists E A rs)
    (hB : Lists E B (rs.map φ)) (hφ : ∀ r ∈ rs, SameUpToOrder r (φ r)) (preserve preserve' : Bool) (tags : List Bytes) {q : Request}
    (hq : q.Web) (hs : Spec.Comparable rs q) : ∃ b, Finds E A preserve tags q b ∧ Finds E B preserve' tags q b :=
  finds_alike hA hB (fun r hr => (order_alike (hφ r hr) E.bad _ _).found) preserve preserve' hq hs

/-- … redundant stars neither (see C82), … -/
theorem C113_stars_partial {E : Env} {A B : Bytes} {rs : List RuleText} {φ : RuleText → RuleText} (hA : Lists E A rs)
    (hB : Lists E B (rs.map φ)) (hφ : ∀ r ∈ rs, φ r = r ∨ SameUpToStars r (φ r)) (preserve preserve' : Bool) (tags : List Bytes)
    {q : Request} (hq : q.Web) (hs : Spec.Comparable rs q) : ∃ b, Finds E A preserve tags q b ∧ Finds E B preserve' tags q b := by
  refine finds_alike hA hB (fun r hr => RuleAlike.found (bad := E.bad) ?_) preserve preserve' hq hs
  rcases hφ r hr with h | h
  · rw [h]
    exact alike_refl _ _ _ _
  · refine stars_alike h ?_ _ _ _
    cases hA.sound.wellFormed r hr with
    | usual hw => exact hw.nonempty
    | odd hw => rw [h.usual] at hw; cases hw

/-- … nor a `^` behind a host (see C98), … -/
theorem C113_separator {E : Env} {A B : Bytes} {rs : List RuleText} {φ : RuleText → RuleText} (hA : Lists E A rs)
    (hB : Lists E B (rs.map φ)) (hφ : ∀ r ∈ rs, φ r = r ∨ SameHost r (φ r)) (preserve preserve' : Bool) (tags : List Bytes)
    {q : Request} (hq : q.Web) (hs : Spec.Comparable rs q) : ∃ b, Finds E A preserve tags q b ∧ Finds E B preserve' tags q b := by
  refine finds_alike hA hB (fun r hr => RuleAlike.found (bad := E.bad) ?_) preserve preserve' hq hs
  rcases hφ r hr with h | h
  · rw [h]
    exact alike_refl _ _ _ _
  · exact sameHost_alike h _ _ hq

/-- … nor redundant domains with a dot (see C111), whether or not the page is known, … -/
theorem C113_domains_partial {E : Env} {A B : Bytes} {rs : List RuleText} {φ : RuleText → RuleText} (hA : Lists E A rs)
    (hB : Lists E B (rs.map φ)) (hφ : ∀ r ∈ rs, SameUpToDomains r (φ r)) (preserve preserve' : Bool) (tags : List Bytes) {q : Request}
    (hq : q.Web) (hs : Spec.Comparable rs q) : ∃ b, Finds E A preserve tags q b ∧ Finds E B preserve' tags q b :=
  finds_alike hA hB (fun r hr => have h := hφ r hr
    ⟨(more_fields h).1, more_hostOnly h, fun _ => more_hostPart h, more_applies h tags q, more_readsPast h q⟩) preserve preserve' hq hs

/-- … nor in which way the types are given, if the type is known (see C112). -/
theorem C113_types_partial {E : Env} {A B : Bytes} {rs : List RuleText} {φ : RuleText → RuleText} (hA : Lists E A rs)
    (hB : Lists E B (rs.map φ)) (hφ : ∀ r ∈ rs, SameUpToTypes r (φ r)) (preserve preserve' : Bool) (tags : List Bytes) {q : Request}
    (ht : q.type ≠ none ∨ ∀ r ∈ rs, AlikeInTypes r (φ r)) (hq : q.Web) (hs : Spec.Comparable rs q) :
    ∃ b, Finds E A preserve tags q b ∧ Finds E B preserve' tags q b :=
  finds_alike hA hB (fun r hr => (types_alike (hφ r hr) E.bad _ hq (ht.imp_right fun h => h r hr)).found) preserve preserve' hq hs

/-- **C113**: rules other than those that consist of a host can be replaced by rules for each of their types or domains (see C83), … -/
theorem C113_split_partial {E : Env} {A B : Bytes} {rs rs' : List RuleText} (hA : Lists E A rs) (hB : Lists E B rs') (h : SplitUp rs rs')
    (preserve preserve' : Bool) (tags : List Bytes) {q : Request} (hq : q.Web) (hs : Spec.Comparable rs q) :
    ∃ b, Finds E A preserve tags q b ∧ Finds E B preserve' tags q b :=
  finds_replaced hA hB (splitUp_replaced h) preserve preserve' hq hs

/-- … and by their two halves, as far as the party is concerned (see C89). -/
theorem C113_halves_partial {E : Env} {A B : Bytes} {rs rs' : List RuleText} (hA : Lists E A rs) (hB : Lists E B rs')
    (h : Halved bs%"third-party" rs rs') (preserve preserve' : Bool) (tags : List Bytes) {q : Request} (hq : q.Web) (hs : Spec.Comparable rs q) :
    ∃ b, Finds E A preserve tags q b ∧ Finds E B preserve' tags q b :=
  finds_replaced hA hB (halved_replaced h halves_party) preserve preserve' hq hs

/-- **C113**: a rule which does not apply to the request makes no difference, unless it consists of a host for which there is another such
rule behind it (see C84, where rules for domains are a further exception). -/
theorem C113_rule_does_not_apply_partial {E : Env} {A B : Bytes} {before after : List RuleText} {r : RuleText} (hA : Lists E A (before ++ after))
    (hB : Lists E B (before ++ r :: after)) {tags : List Bytes} {q : Request} (hr : ¬ r.AppliesTo tags q)
    (hm : r.HostOnly → ∀ y ∈ after, ¬ (y.HostOnly ∧ y.exception = r.exception ∧ y.hostPart = r.hostPart))
    (preserve preserve' : Bool) (hq : q.Web) (hs : Spec.Comparable (before ++ r :: after) q) :
    ∃ b, Finds E A preserve tags q b ∧ Finds E B preserve' tags q b := by
  have hsub : ∀ x ∈ before ++ after, x ∈ before ++ r :: after := by
    intro x hx
    simp only [List.mem_append, List.mem_cons] at hx ⊢
    rcases hx with hx | hx <;> simp [hx]
  refine finds_same hA hB preserve preserve' hq ⟨fun x hx => hs.inBounds x (hsub x hx)⟩ hs fun s => ⟨?_, ?_⟩
  · rintro ⟨x, hx, he, hc, ha⟩
    have hne : x ≠ r := fun h => hr (h ▸ ha)
    exact ⟨x, hsub x hx, he, (hostCounted_insert hne hm).2 hc, ha⟩
  · rintro ⟨x, hx, he, hc, ha⟩
    have hne : x ≠ r := fun h => hr (h ▸ ha)
    refine ⟨x, ?_, he, (hostCounted_insert hne hm).1 hc, ha⟩
    simp only [List.mem_append, List.mem_cons] at hx ⊢
    rcases hx with hx | hx | hx
    · exact .inl hx
    · exact absurd hx hne
    · exact .inr hx

/-! ### examples, and what goes wrong otherwise -/

/-- for lists without rules for domains only, `findMatchingFilters` and `matches` are the same (C105) -/
theorem finds_of_answers {E : Env} (hroll : ∀ url, E.fp.rolls url) {A : Bytes} {rs : List RuleText} (hp : ∀ r ∈ rs, plainRule r = true)
    (hA : Lists E A rs) (hdom : ∀ r ∈ rs, r.value bs%"domain=" = none) {q : Request} (hq : q.Web) {b : Bool}
    (h : Answers E A false [] q b) : Finds E A false [] q b := by
  obtain ⟨b', h1, h2⟩ := C105_same_answer hA (fun r hr dl hdl => nomatch (hdom r hr).symm.trans hdl.1) false [] (plainRules_askable hroll hp hq)
  exact answers_unique h1 h ▸ h2

/-- **C113** fails for rules that consist of a host, of which only the first is kept: one for two types is not replaced by two for one type. -/
theorem C113_host_counterexample {E : Env} (hroll : ∀ url, E.fp.rolls url) : Finds E bs%"||ads.com^$script,image" false [] exAds true ∧
    Finds E bs%"||ads.com^$script\n||ads.com^$image" false [] exAds false := by
  have hp : ∀ r ∈ [({ anchor := .host, text := bs%"ads.com^", options := some bs%"script,image" } : RuleText)], plainRule r = true := by decide +kernel
  have hp' : ∀ r ∈ [exScripts, exImages], plainRule r = true := by decide +kernel
  exact ⟨finds_of_answers hroll hp (lists_rules (plainRules_sound hp) (by simp)) (by decide +kernel) exAds_web (C83_host_counterexample hroll).1,
    finds_of_answers hroll hp' (lists_rules (plainRules_sound hp') (by simp)) (by decide +kernel) exAds_web (C83_host_counterexample hroll).2⟩

/-- **C113** fails for requests of an unknown type: see C112. -/
theorem C113_unknown_counterexample {E : Env} (hroll : ∀ url, E.fp.rolls url) :
    Finds E (listText [exNotScript.line]) false [] { exBanner with type := none, domain := some bs%"b.com" } true ∧
    Finds E (listText [exAllOthers.line]) false [] { exBanner with type := none, domain := some bs%"b.com" } false := by
  have hw : ({ exBanner with type := none, domain := some bs%"b.com" } : Request).Web :=
    ⟨exBanner_web.scheme, exBanner_web.host, exBanner_web.rest, exBanner_web.text, by simp⟩
  have hp : ∀ r ∈ [exNotScript], plainRule r = true := by decide +kernel
  have hp' : ∀ r ∈ [exAllOthers], plainRule r = true := by decide +kernel
  exact ⟨finds_of_answers hroll hp (lists_rules (plainRules_sound hp) (by simp)) (by decide +kernel) hw (C112_unknown_counterexample hroll).2.1,
    finds_of_answers hroll hp' (lists_rules (plainRules_sound hp') (by simp)) (by decide +kernel) hw (C112_unknown_counterexample hroll).2.2⟩

/-- **C113**, an example: while `matches` ignores the first of these if the page is unknown (C111), `findMatchingFilters` does not. -/
example {E : Env} (hroll : ∀ url, E.fp.rolls url) (page : Option Bytes) : ∃ b, Finds E bs%"&b=$domain=a.com" false [] { exOnY with domain := page } b ∧
    Finds E bs%"&b=$domain=a.com|~c.com" false [] { exOnY with domain := page } b := by
  let r : RuleText := { text := bs%"&b=", options := some bs%"domain=a.com" }
  let r' : RuleText := { text := bs%"&b=", options := some bs%"domain=a.com|~c.com" }
  have hp : ∀ x ∈ [r], plainRule x = true := by decide +kernel
  have hp' : ∀ x ∈ [r'], plainRule x = true := by decide +kernel
  have hw : ({ exOnY with domain := page } : Request).Web := ⟨exOnY_web.scheme, exOnY_web.host, exOnY_web.rest, exOnY_web.text, exOnY_web.type⟩
  refine C113_domains_partial (rs := [r]) (φ := fun _ => r') (lists_rules (plainRules_sound hp) (by simp))
    (lists_rules (rs := [r']) (plainRules_sound hp') (by simp)) (fun x hx => ?_) false false [] hw (plainRules_askable hroll hp hw).safe
  rw [List.mem_singleton.1 hx]
  refine ⟨rfl, fun o ho => ?_, by decide +kernel, .inr ⟨_, _, by decide +kernel, by decide +kernel, (C111_page_counterexample hroll).1⟩⟩
  have h1 : ∀ o ∈ r.entries, HasValue o := by decide +kernel
  have h2 : ∀ o ∈ r'.entries, HasValue o := by decide +kernel
  exact ⟨fun h => absurd (h2 o h) ho, fun h => absurd (h1 o h) ho⟩

end AdBlock
