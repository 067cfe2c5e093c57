import Verif.Props.FindListLaws
import Verif.Props.Documented
import Verif.Props.Case
/-
What rules mean according to their documentation, and `findMatchingFilters` (C117).
-/
namespace AdBlock
open Spec

/-- **C117**, as far as it holds: `findMatchingFilters` blocks nothing unless one of the rules is meant for it, if the blocking rules with two bars
consist of a host, or the host with which they begin occurs nowhere behind that of the address (see C91). -/
theorem C117_no_more_partial {E : Env} {A : Bytes} {rs : List RuleText} (hA : Lists E A rs) {q : Request}
    (hr : ∀ r ∈ rs, r.exception = false → r.odd = none ∧ (r.anchor ≠ .host ∨ r.HostOnly ∨ (r.HostFirst ∧ q.Unquoted r)))
    (preserve : Bool) (tags : List Bytes) (hq : q.Web) (hs : Spec.Comparable rs q) (hhost : ∀ c ∈ q.host, Ordinary c)
    (h : Finds E A preserve tags q true) : ∃ r ∈ rs, r.exception = false ∧ r.Meant tags q := by
  obtain ⟨b, h1, h2⟩ := finds_iff hA preserve tags hq hs
  obtain ⟨⟨r, hm, he, -, ha⟩, -⟩ := h2.1 (finds_unique h1 h)
  refine ⟨r, hm, he, ha.1, ha.2.1, ha.2.2.1, ha.2.2.2.1, ?_⟩
  rcases (hr r hm he).2 with h | h | h
  · exact fits_meant hq (hr r hm he).1 (.inl h) ha.2.2.2.2
  · exact fits_meant hq (hr r hm he).1 (.inr h) ha.2.2.2.2
  · exact hostFirst_meant hq h.1 h.2 hhost ha.2.2.2.2

/-- **C117**, as far as it holds: if all rules of a list are simple, or regular like the request, or have two bars, a host which does not occur
elsewhere in the address, and a regular text like the request, and those that consist of a host are the first for it, `findMatchingFilters` blocks a
request exactly if a rule is meant for it and no exception is. -/
theorem C117_exact_partial {E : Env} {A : Bytes} {rs : List RuleText} (hA : Lists E A rs) {q : Request}
    (hr : ∀ r ∈ rs, (r.Simple ∨ (r.Regular ∧ q.Regular r) ∨ (r.HostFirst ∧ RegularText r.text ∧ q.Regular r ∧ q.Unquoted r)) ∧ Kept rs r)
    (preserve : Bool) (tags : List Bytes) (hq : q.Web) (hs : Spec.Comparable rs q) (hhost : ∀ c ∈ q.host, Ordinary c) :
    ∃ b, Finds E A preserve tags q b ∧
      (b = true ↔ (∃ r ∈ rs, r.exception = false ∧ r.Meant tags q) ∧ ¬ ∃ r ∈ rs, r.exception = true ∧ r.Meant tags q) := by
  obtain ⟨b, h1, h2⟩ := finds_iff hA preserve tags hq hs
  refine ⟨b, h1, ?_⟩
  have fits : ∀ r ∈ rs, (r.AddressFits q ↔ r.AddressMeant q) := fun r hm => by
    rcases (hr r hm).1 with h | h | h
    · exact simple_meant hq h hhost
    · exact regular_meant hq h.1 h.2
    · exact ⟨hostFirst_meant hq h.1 h.2.2.2 hhost, hostFirst_fits hq h.1 h.2.1 h.2.2.1 hhost⟩
  have key : ∀ s, (∃ r ∈ rs, r.exception = s ∧ r.Meant tags q) ↔ ∃ r ∈ rs, r.exception = s ∧ HostCounted rs q r ∧ r.AppliesTo tags q := by
    intro s
    constructor
    · rintro ⟨r, hm, he, hmt⟩
      exact ⟨r, hm, he, kept_counted (hr r hm).2 q, hmt.1, hmt.2.1, hmt.2.2.1, hmt.2.2.2.1, (fits r hm).2 hmt.2.2.2.2⟩
    · rintro ⟨r, hm, he, -, ha⟩
      exact ⟨r, hm, he, ha.1, ha.2.1, ha.2.2.1, ha.2.2.2.1, (fits r hm).1 ha.2.2.2.2⟩
  rw [key, key]
  exact h2

/-- **C117**, as far as it holds: without exceptions it blocks every request which one of the rules is meant for, if this is simple, regular like the
request, also behind two bars and a host, or made of two bars, a host and more text without special characters, and, if it consists of a host, the
first for it. -/
theorem C117_no_less_partial {E : Env} {A : Bytes} {rs : List RuleText} (hA : Lists E A rs) (he : ∀ r ∈ rs, r.exception = false) {q : Request}
    {r : RuleText} (hr : r ∈ rs) (hr' : r.Simple ∨ (r.Regular ∧ q.Regular r) ∨ r.HostAndMore ∨ (r.HostFirst ∧ RegularText r.text ∧ q.Regular r))
    (hrel : Kept rs r) (preserve : Bool) (tags : List Bytes) (hq : q.Web) (hs : Spec.Comparable rs q) (hhost : ∀ c ∈ q.host, Ordinary c)
    (hm : r.Meant tags q) : Finds E A preserve tags q true := by
  obtain ⟨b, h1, h2⟩ := finds_iff hA preserve tags hq hs
  have hfits : r.AddressFits q := by
    rcases hr' with h | h | h | h
    · exact (simple_meant hq h hhost).2 hm.2.2.2.2
    · exact (regular_meant hq h.1 h.2).2 hm.2.2.2.2
    · exact hostAndMore_fits hq h hhost hm.2.2.2.2
    · exact hostFirst_fits hq h.1 h.2.1 h.2.2 hhost hm.2.2.2.2
  have : b = true := by
    rw [h2]
    refine ⟨⟨r, hr, he r hr, kept_counted hrel q, hm.1, hm.2.1, hm.2.2.1, hm.2.2.2.1, hfits⟩, ?_⟩
    rintro ⟨x, hx, hxe, -⟩
    rw [he x hx] at hxe
    cases hxe
  exact this ▸ h1

/-- **C117**, as far as it holds: what is blocked is blocked as well if the address and the rules are written in lower case (the list has no exceptions
and no options about pages, see C88). -/
theorem C117_lower_partial {E : Env} {A B : Bytes} {rs : List RuleText} (hA : Lists E A rs) (hB : Lists E B (rs.map lowerText))
    (h : ∀ r ∈ rs, r.odd = none ∧ r.exception = false ∧ AnyPage r) (hrel : ∀ r ∈ rs, Kept (rs.map lowerText) (lowerText r))
    (preserve preserve' : Bool) (tags : List Bytes) {q : Request} (hq : q.Web) (hs : Spec.Comparable rs q) (hq' : q.lowered.Web)
    (hs' : Spec.Comparable (rs.map lowerText) q.lowered) (hb : Finds E A preserve tags q true) : Finds E B preserve' tags q.lowered true := by
  obtain ⟨b, h1, h2⟩ := finds_iff hA preserve tags hq hs
  obtain ⟨b', h3, h4⟩ := finds_iff hB preserve' tags hq' hs'
  obtain ⟨⟨r, hr, he, -, ha⟩, -⟩ := h2.1 (finds_unique h1 hb)
  have : b' = true := by
    rw [h4]
    refine ⟨⟨lowerText r, List.mem_map.2 ⟨r, hr, rfl⟩, he, kept_counted (hrel r hr) _, lower_applies (h r hr).1 (h r hr).2.2 ha⟩, ?_⟩
    rintro ⟨x, hx, hxe, -⟩
    obtain ⟨y, hy, rfl⟩ := List.mem_map.1 hx
    rw [show (lowerText y).exception = y.exception from rfl, (h y hy).2.1] at hxe
    cases hxe
  exact this ▸ h3

/-! ### counterexamples -/

/-- **C117** fails: `^` does not stand for `&` (see C91). -/
theorem C117_separator_counterexample {E : Env} (hroll : ∀ url, E.fp.rolls url) : Finds E bs%"banner^" false [] exAmpersand false ∧
    RuleText.Meant { text := bs%"banner^" } [] exAmpersand := by
  have hp : ∀ r ∈ [({ text := bs%"banner^" } : RuleText)], plainRule r = true := by decide +kernel
  exact ⟨finds_of_answers hroll hp (lists_rules (plainRules_sound hp) (by simp)) (by decide +kernel) exAmpersand_web (C91_separator_counterexample hroll).1,
    (C91_separator_counterexample hroll).2⟩

/-- **C117** fails: with a bar before the text `*` stands for itself only (see C91). -/
theorem C117_anchored_counterexample {E : Env} (hroll : ∀ url, E.fp.rolls url) : Finds E bs%"|https://*banner" false [] exBanner false ∧
    RuleText.Meant { anchor := .left, text := bs%"https://*banner" } [] exBanner := by
  have hp : ∀ r ∈ [({ anchor := .left, text := bs%"https://*banner" } : RuleText)], plainRule r = true := by decide +kernel
  exact ⟨finds_of_answers hroll hp (lists_rules (plainRules_sound hp) (by simp)) (by decide +kernel) exBanner_web (C91_anchored_counterexample hroll).1,
    (C91_anchored_counterexample hroll).2⟩

/-- **C117** fails: `^` behind a star does not stand for the end of the address if nothing is between the two texts (see C91). -/
theorem C117_tight_counterexample {E : Env} (hroll : ∀ url, E.fp.rolls url) : Finds E bs%"b.c*om/banner^" false [] exBanner false ∧
    RuleText.Meant { text := bs%"b.c*om/banner^" } [] exBanner := by
  have hp : ∀ r ∈ [({ text := bs%"b.c*om/banner^" } : RuleText)], plainRule r = true := by decide +kernel
  exact ⟨finds_of_answers hroll hp (lists_rules (plainRules_sound hp) (by simp)) (by decide +kernel) exBanner_web (C91_tight_counterexample hroll).1,
    (C91_tight_counterexample hroll).2⟩

/-- **C117** fails: what follows two bars must begin with the whole host (see C91). -/
theorem C117_prefix_counterexample {E : Env} (hroll : ∀ url, E.fp.rolls url) : Finds E bs%"||ads.co" false [] exAds false ∧
    RuleText.Meant { anchor := .host, text := bs%"ads.co" } [] exAds := by
  have hp : ∀ r ∈ [({ anchor := .host, text := bs%"ads.co" } : RuleText)], plainRule r = true := by decide +kernel
  exact ⟨finds_of_answers hroll hp (lists_rules (plainRules_sound hp) (by simp)) (by decide +kernel) exAds_web (C91_prefix_counterexample hroll).1,
    (C91_prefix_counterexample hroll).2⟩

/-- **C117** fails: what follows the host is looked for anywhere (see C91). -/
theorem C117_elsewhere_counterexample {E : Env} (hroll : ∀ url, E.fp.rolls url) : Finds E bs%"||ads.com/x" false [] exQuoted true ∧
    ¬ RuleText.Meant { anchor := .host, text := bs%"ads.com/x" } [] exQuoted := by
  have hp : ∀ r ∈ [({ anchor := .host, text := bs%"ads.com/x" } : RuleText)], plainRule r = true := by decide +kernel
  exact ⟨finds_of_answers hroll hp (lists_rules (plainRules_sound hp) (by simp)) (by decide +kernel) exQuoted_web (C91_elsewhere_counterexample hroll).1,
    (C91_elsewhere_counterexample hroll).2⟩

/-- **C117** fails: capital letters in the host make a difference (see C88). -/
theorem C117_case_counterexample {E : Env} (hroll : ∀ url, E.fp.rolls url) : Finds E bs%"||ads.com^" false [] exCapitalHost false ∧
    Finds E bs%"||ads.com^" false [] exCapitalHost.lowered true := by
  have hp : ∀ r ∈ [({ anchor := .host, text := bs%"ads.com^" } : RuleText)], plainRule r = true := by decide +kernel
  exact ⟨finds_of_answers hroll hp (lists_rules (plainRules_sound hp) (by simp)) (by decide +kernel) exCapitalHost_web.1 (C88_host_counterexample hroll).1,
    finds_of_answers hroll hp (lists_rules (plainRules_sound hp) (by simp)) (by decide +kernel) exCapitalHost_web.2 (C88_host_counterexample hroll).2⟩

/-! ### examples -/

/-- **C117**, an example: a list of simple rules. -/
example {E : Env} (hroll : ∀ url, E.fp.rolls url) : Finds E bs%"||ads.com^\nbanner|\n@@|https://b.com/ok" false [] exBanner true := by
  let rs : List RuleText := [{ anchor := .host, text := bs%"ads.com^" }, { text := bs%"banner", rightBar := true },
    { exception := true, anchor := .left, text := bs%"https://b.com/ok" }]
  have hp : ∀ r ∈ rs, plainRule r = true := by decide +kernel
  have hs : ∀ r ∈ rs, (r.Simple ∨ (r.Regular ∧ exBanner.Regular r) ∨ (r.HostFirst ∧ RegularText r.text ∧ exBanner.Regular r ∧ exBanner.Unquoted r)) ∧
      Kept rs r := by
    intro r hr
    simp only [rs, List.mem_cons, List.not_mem_nil, or_false] at hr
    rcases hr with rfl | rfl | rfl
    · exact ⟨.inl ⟨rfl, .inr ⟨rfl, rfl, bs%"ads.com", by decide, rfl, by decide⟩⟩, fun _ => ⟨by decide +kernel, [], _, rfl, by simp⟩⟩
    · exact ⟨.inl ⟨rfl, .inl ⟨by decide, by decide, by decide⟩⟩, fun h => absurd h (by decide +kernel)⟩
    · exact ⟨.inl ⟨rfl, .inl ⟨by decide, by decide, by decide⟩⟩, fun h => absurd h (by decide +kernel)⟩
  obtain ⟨b, h1, h2⟩ := C117_exact_partial (E := E) (rs := rs) (lists_rules (plainRules_sound hp) (by simp [rs])) hs false [] exBanner_web
    (plainRules_askable (E := E) hroll hp exBanner_web).safe (by decide +kernel)
  have : b = true := by
    rw [h2]
    refine ⟨⟨rs[1], by simp [rs], rfl, (meant_bare (by decide +kernel) (by rintro t ⟨⟩; decide)).2 ⟨bs%"https://b.com/", bs%"banner", [],
      by decide +kernel, stands_self bs%"banner" [], fun _ => rfl⟩⟩, ?_⟩
    rintro ⟨r, hr, he, hm⟩
    simp only [rs, List.mem_cons, List.not_mem_nil, or_false] at hr
    rcases hr with rfl | rfl | rfl
    · cases he
    · cases he
    · rw [meant_bare (by decide +kernel) (by rintro t ⟨⟩; decide)] at hm
      obtain ⟨w, h3, -⟩ := hm
      have h4 : bs%"https://b.com/ok" <+: exBanner.url := ⟨w, (stands_plain h3 (by decide) (by decide)).symm⟩
      exact absurd h4 (by decide +kernel)
  exact this ▸ h1

/-- **C117**, an example: a rule with a host and a path, which is found, and so is meant for the request. -/
example {E : Env} (hroll : ∀ url, E.fp.rolls url) : Finds E bs%"||b.com/ban" false [] exBanner true ∧
    ∃ r ∈ [({ anchor := .host, text := bs%"b.com/ban" } : RuleText)], r.exception = false ∧ r.Meant [] exBanner := by
  have hp : ∀ r ∈ [({ anchor := .host, text := bs%"b.com/ban" } : RuleText)], plainRule r = true := by decide +kernel
  have hl : Lists E bs%"||b.com/ban" [{ anchor := .host, text := bs%"b.com/ban" }] := lists_rules (plainRules_sound hp) (by simp)
  have hs := (plainRules_askable (E := E) hroll hp exBanner_web).safe
  have h := C117_no_less_partial hl (by simp) (List.mem_singleton_self _)
    (.inr (.inr (.inl ⟨rfl, rfl, rfl, by decide, by decide, bs%"b.com", ch%'/', bs%"ban", by decide, rfl, by decide, by decide⟩)))
    (fun h => absurd h (by decide +kernel)) false [] exBanner_web hs (by decide +kernel)
    ((meant_bare (by decide +kernel) (by rintro t ⟨⟩; decide)).2 ⟨[], bs%"b.com", bs%"ner", rfl, .inl rfl,
      stands_self bs%"b.com/ban" bs%"ner", nofun⟩)
  refine ⟨h, C117_no_more_partial hl (fun r hr _ => ?_) false [] exBanner_web hs (by decide +kernel) h⟩
  rw [List.mem_singleton.1 hr]
  refine ⟨rfl, .inr (.inr ⟨⟨rfl, rfl, rfl, bs%"b.com", ch%'/', bs%"ban", by decide, rfl, by decide, by decide⟩, ?_⟩)⟩
  intro a b h
  have h3 : bs%"b.com" <:+: exBanner.rest := ⟨a, b, h.symm⟩
  exact absurd h3 (by decide +kernel)

/-- **C117**, an example: `Banner` applies to `/Banner`, so `banner` does to `/banner`. -/
example {E : Env} (hroll : ∀ url, E.fp.rolls url) : Finds E bs%"banner" false [] exCapitalPath.lowered true := by
  have hp : ∀ r ∈ [({ text := bs%"Banner" } : RuleText)], plainRule r = true := by decide +kernel
  have hp' : ∀ r ∈ [({ text := bs%"Banner" } : RuleText)].map lowerText, plainRule r = true := by decide +kernel
  have hl : Lists E bs%"Banner" [{ text := bs%"Banner" }] := lists_rules (plainRules_sound hp) (by simp)
  exact C117_lower_partial hl (lists_rules (rs := [lowerText { text := bs%"Banner" }]) (plainRules_sound hp') (by simp))
    (fun r hr => by rw [List.mem_singleton.1 hr]; exact ⟨rfl, rfl, by decide +kernel, by decide +kernel, by decide +kernel⟩)
    (fun r hr h => by rw [List.mem_singleton.1 hr] at h; exact absurd h (by decide +kernel)) false false [] exCapitalPath_web.1
    (plainRules_askable (E := E) hroll hp exCapitalPath_web.1).safe exCapitalPath_web.2 (plainRules_askable (E := E) hroll hp' exCapitalPath_web.2).safe
    (finds_of_answers hroll hp hl (by decide +kernel) exCapitalPath_web.1 (C88_path_counterexample hroll).2.1)

end AdBlock
