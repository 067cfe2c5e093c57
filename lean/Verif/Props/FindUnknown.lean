import Verif.Props.FindListLaws
/-
Requests about which less is known, and `findMatchingFilters` (C116).
-/
namespace AdBlock
open Spec

/-- What is blocked is so for another request to the same host, if no blocking rule applies to the first only and no exception to the second only. -/
theorem finds_request_mono {E : Env} {A : Bytes} {rs : List RuleText} (hA : Lists E A rs) (preserve : Bool) {tags : List Bytes} {q q' : Request}
    (hhost : q'.host = q.host) (hq : q.Web) (hs : Spec.Comparable rs q) (hq' : q'.Web) (hs' : Spec.Comparable rs q')
    (more : ∀ r ∈ rs, r.exception = false → r.AppliesTo tags q → r.AppliesTo tags q')
    (less : ∀ r ∈ rs, r.exception = true → r.AppliesTo tags q' → r.AppliesTo tags q)
    (h : Finds E A preserve tags q true) : Finds E A preserve tags q' true := by
  have hc : ∀ r, HostCounted rs q' r ↔ HostCounted rs q r := fun r => by
    unfold HostCounted
    rw [hhost]
  obtain ⟨b, h1, h2⟩ := finds_iff hA preserve tags hq hs
  obtain ⟨b', h3, h4⟩ := finds_iff hA preserve tags hq' hs'
  obtain ⟨⟨r, hr, he, hr', ha⟩, hno⟩ := h2.1 (finds_unique h1 h)
  have : b' = true := h4.2 ⟨⟨r, hr, he, (hc r).2 hr', more r hr he ha⟩, fun ⟨e, hr, he, hr', ha⟩ => hno ⟨e, hr, he, (hc e).1 hr', less e hr he ha⟩⟩
  exact this ▸ h3

/-- **C116** for lists without excluded types (and without `collapse` and `donottrack`, see C53) in their blocking rules: what `findMatchingFilters` blocks if
the type of the request is not announced, it also blocks if it is, main documents aside, unless there are exceptions which say something about types. -/
theorem C116_type_partial {E : Env} {A : Bytes} {rs : List RuleText} (hA : Lists E A rs) (hex : ∀ r ∈ rs, r.exception = true → AnyType r)
    (hnot : ∀ r ∈ rs, r.exception = false → r.notTypes = [] ∧ ¬ r.TakenForType) (preserve : Bool) (tags : List Bytes) {q : Request} (hn : q.type = none)
    {t : Bytes × Mask} (ht : t ∈ typeTable) (hdoc : t.1 ≠ bs%"document") (hq : q.Web) (hs : Spec.Comparable rs q)
    (hs' : Spec.Comparable rs { q with type := some t }) (h : Finds E A preserve tags q true) :
    Finds E A preserve tags { q with type := some t } true := by
  refine finds_request_mono (q := q) (q' := { q with type := some t }) hA preserve rfl hq hs
    ⟨hq.scheme, hq.host, hq.rest, hq.text, by rintro _ ⟨⟩; exact ht⟩ hs' (fun r hr he ha => ?_) (fun r hr he ha => ?_) h
  · obtain ⟨h1, h2, h3⟩ := ha
    refine ⟨h1, ?_, h3⟩
    unfold RuleText.TypeAllowed at h2 ⊢
    rw [hn] at h2
    simp only at h2 ⊢
    exact ⟨.inr ⟨h2.1, (hnot r hr he).2⟩, by rw [(hnot r hr he).1]; simp, fun h => absurd h hdoc⟩
  · obtain ⟨h1, -, h3⟩ := ha
    refine ⟨h1, ?_, h3⟩
    unfold RuleText.TypeAllowed
    rw [hn]
    exact ⟨(hex r hr he).1, fun _ => (hex r hr he).2.1, fun _ => (hex r hr he).2.2⟩

/-- **C116**: what it blocks on some page, it also blocks if the page is not announced, provided that the type of the request is, unless there are
exceptions which say something about pages. (Other than for `matches`, rules with `domain=` which cannot be indexed are no problem, see C102.) -/
theorem C116_page {E : Env} {A : Bytes} {rs : List RuleText} (hA : Lists E A rs) (hex : ∀ r ∈ rs, r.exception = true → AnyPage r)
    (preserve : Bool) (tags : List Bytes) {q : Request} (ht : q.type ≠ none) (hq : q.Web) (hs : Spec.Comparable rs q)
    (hs' : Spec.Comparable rs { q with domain := none }) (h : Finds E A preserve tags q true) :
    Finds E A preserve tags { q with domain := none } true := by
  obtain ⟨t, ht⟩ := Option.ne_none_iff_exists'.1 ht
  have hty : ∀ r : RuleText, r.TypeAllowed { q with domain := none } ↔ r.TypeAllowed q := fun r => by
    unfold RuleText.TypeAllowed
    simp only [ht]
  refine finds_request_mono (q := q) (q' := { q with domain := none }) hA preserve rfl hq hs ⟨hq.scheme, hq.host, hq.rest, hq.text, hq.type⟩ hs'
    (fun r hr he ha => ?_) (fun r hr he ha => ?_) h
  · obtain ⟨h1, h2, -, h4⟩ := ha
    exact ⟨h1, (hty r).2 h2, fun d hd => (by cases hd), h4⟩
  · obtain ⟨h1, h2, -, h4⟩ := ha
    exact ⟨h1, (hty r).1 h2, anyPage_allowed (hex r hr he) q, h4⟩

/-! ### Examples -/

/-- **C116** fails for rules that exclude types, if the page is known: see C102. -/
theorem C116_type_counterexample {E : Env} (hroll : ∀ url, E.fp.rolls url) :
    Finds E bs%"banner$~script" false [] { exBanner with type := none, domain := some bs%"b.com" } true ∧
    Finds E bs%"banner$~script" false [] { exBanner with domain := some bs%"b.com" } false := by
  have hp : ∀ r ∈ [({ text := bs%"banner", options := some bs%"~script" } : RuleText)], plainRule r = true := by decide +kernel
  exact ⟨(C114_unknown_counterexample hroll).2,
    finds_of_answers (q := { exBanner with domain := some bs%"b.com" }) hroll hp (lists_rules (plainRules_sound hp) (by simp)) (by decide +kernel)
      ⟨exBanner_web.scheme, exBanner_web.host, exBanner_web.rest, exBanner_web.text, exBanner_web.type⟩ (C102_type_counterexample hroll).2⟩

/-- **C116** fails for the page of a request of unknown type, if rules exclude types: the first request is blocked, not so without its page. -/
theorem C116_page_counterexample {E : Env} (hroll : ∀ url, E.fp.rolls url) :
    Finds E bs%"banner$~script" false [] { exBanner with type := none, domain := some bs%"b.com" } true ∧
    Finds E bs%"banner$~script" false [] { exBanner with type := none, domain := none } false :=
  ⟨(C114_unknown_counterexample hroll).2, (C114_unknown_counterexample hroll).1⟩

/-- A request of unknown type is blocked by `banner`, so a script is, … -/
example (E : Env) (hroll : ∀ url, E.fp.rolls url) : Finds E bs%"banner" false [] exBanner true := by
  have hp : ∀ r ∈ [({ text := bs%"banner" } : RuleText)], plainRule r = true := by decide +kernel
  have hw : ({ exBanner with type := none } : Request).Web := ⟨exBanner_web.scheme, exBanner_web.host, exBanner_web.rest, exBanner_web.text, by simp⟩
  have hl : Lists E bs%"banner" [{ text := bs%"banner" }] := lists_rules (plainRules_sound hp) (by simp)
  exact C116_type_partial (q := { exBanner with type := none }) (t := (bs%"script", FOScript)) hl (by simp)
    (fun r hr _ => by rw [List.mem_singleton.1 hr]; exact ⟨by decide +kernel, by unfold RuleText.TakenForType; decide +kernel⟩) false [] rfl
    (by decide +kernel) (by decide) hw (plainRules_askable (E := E) hroll hp hw).safe (plainRules_askable (E := E) hroll hp exBanner_web).safe
    (finds_of_answers hroll hp hl (by decide +kernel) hw
      (answers_compared (v := true) (r := { text := bs%"banner" }) hroll (hp _ (by simp)) rfl (.inl (by decide +kernel)) (by decide +kernel)
        (by decide +kernel) hw (by decide +kernel)))

private def exOnX : RuleText := { text := bs%"&b=", options := some bs%"domain=x.com" }

/-- … and what `&b=$domain=x.com` blocks on `x.com`, it blocks if the page is not known, though not for `matches` (C102). -/
example {E : Env} (hroll : ∀ url, E.fp.rolls url) : Finds E bs%"&b=$domain=x.com" false [] { exOnY with domain := none } true := by
  have hp : ∀ r ∈ [exOnX], plainRule r = true := by decide +kernel
  have hl : Lists E bs%"&b=$domain=x.com" [exOnX] := lists_rules (plainRules_sound hp) (by simp)
  have hw : ∀ d, ({ exOnY with domain := d } : Request).Web := fun d => ⟨exOnY_web.scheme, exOnY_web.host, exOnY_web.rest, exOnY_web.text, exOnY_web.type⟩
  have hs := fun d => (plainRules_askable (E := E) hroll hp (hw d)).safe
  refine C116_page (q := { exOnY with domain := some bs%"x.com" }) hl (fun r hr he => ?_) false [] (by decide +kernel) (hw _) (hs _) (hs none) ?_
  · rw [List.mem_singleton.1 hr] at he; cases he
  · obtain ⟨b, h1, h2⟩ := finds_iff hl false [] (hw (some bs%"x.com")) (hs _)
    have : b = true := by
      rw [h2]
      refine ⟨⟨exOnX, by simp, rfl, fun h => absurd h (by decide +kernel),
        (applies_compared (v := true) (hp _ (by simp)) (hw _) (by decide +kernel) (by decide +kernel) []).2 rfl⟩, ?_⟩
      rintro ⟨r, hr, he, -⟩
      rw [List.mem_singleton.1 hr] at he
      cases he
    exact this ▸ h1

end AdBlock
