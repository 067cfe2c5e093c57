import Verif.Lemmas.Load
import Verif.Props.Verdict
/-
Options about resource types at the level of clients: the violated parts of C12 and C53.
-/
namespace AdBlock
open Spec

/-- A client with a single rule (not a host rule, and without `domain=`), asked about a web request. -/
theorem single_rule (E : Env) (r : RuleText) (hok : r.ok = true ∧ safeLine r.line = true) (hsafe : safeRule (r.filter false) = true)
    (hex : r.exception = false) (htag : (r.filter false).tag = []) (hdom : (r.filter false).domainList = none) (hh : ¬ r.HostOnly)
    (url : Bytes) (hweb : isBlockableProtocol (cstr url) url.length = .ok true) (h0 : 0 ∉ url) (hroll : E.fp.rolls url) (co : Mask) (dom : Option Bytes) :
    ∃ c, (Client.fresh E).parse r.line false = .ok c ∧ ∃ o, c.query url co dom = .ok o ∧
      (o.block = true ↔ (r.filter false).matches url (resolveContext url co dom) dom none = .ok true) := by
  obtain ⟨c, h1, h2, h3, h4⟩ := loaded E [r] (by simp) (by simpa using hok) (by simpa using hsafe)
  obtain ⟨o, ho⟩ := (h4 url co dom h0).1
  obtain ⟨w1, w2⟩ := webUrl_of_check hweb
  refine ⟨c, h1, o, ho, ?_⟩
  have hk := (kind_bits r).2.1
  have hreg : Regular E.bad [r.filter false] url dom := by
    refine regular_of_no_domains (by simpa using hdom) fun s f hf hr => ?_
    simp only [List.mem_cons, List.not_mem_nil, or_false] at hf
    subst hf
    have : has r.kind FTHostOnly = true := hr.2.1
    rw [hk] at this
    exact absurd (by simpa using this) hh
  have hkind : (r.filter false).filterType &&& FTListTypesMask = 0 := by
    change r.kind &&& _ = _
    unfold RuleText.kind
    rw [hex, if_neg hh]
    cases r.anchor <;> cases r.rightBar <;> decide
  rw [C23_reference h2 w1 w2 h0 hroll hreg ho]
  simp only [List.map_cons, List.map_nil, List.mem_cons, List.not_mem_nil, or_false, exists_eq_left, Kind, hkind, Acts, htag]
  have : ¬ 0#32 = FTException := by decide
  simp [this]

/-- **C12, violated part**: if the caller does not know the type of the request but gives the domain of
the page, rules that exclude types are applied.  (They are not if the domain is missing, and the
comment in the code says that rules with an explicit resource type are never applied when the
type is not known.) -/
theorem C12_unknown_type_counterexample (E : Env) (hroll : ∀ url, E.fp.rolls url) :
    (∃ c, (Client.fresh E).parse bs%"advert$~script" false = .ok c ∧
      ∃ o, c.query bs%"http://a.com/advert" 0 (some bs%"b.com") = .ok o ∧ o.block = true) ∧
    (∃ c, (Client.fresh E).parse bs%"advert$~script" false = .ok c ∧
      ∃ o, c.query bs%"http://a.com/advert" 0 none = .ok o ∧ o.block = false) := by
  constructor
  · obtain ⟨c, h1, o, h2, h3⟩ := single_rule E { text := bs%"advert", options := some bs%"~script" } (by decide +kernel) (by decide +kernel) rfl
      (by decide +kernel) (by decide +kernel) (by decide +kernel) bs%"http://a.com/advert" (by decide +kernel) (by decide) (hroll _) 0 (some bs%"b.com")
    exact ⟨c, h1, o, h2, h3.2 (by decide +kernel)⟩
  · obtain ⟨c, h1, o, h2, h3⟩ := single_rule E { text := bs%"advert", options := some bs%"~script" } (by decide +kernel) (by decide +kernel) rfl
      (by decide +kernel) (by decide +kernel) (by decide +kernel) bs%"http://a.com/advert" (by decide +kernel) (by decide) (hroll _) 0 none
    refine ⟨c, h1, o, h2, ?_⟩
    rw [← Bool.not_eq_true, h3]
    decide +kernel

/-- **C12**, what holds of this: a rule that lists types is never applied if the type is not known,
whatever is known about the page. -/
theorem C12_unknown_type_partial (f : Filter) (url : Bytes) (dom : Option Bytes) (bloom : Option (Bytes → Bool))
    (hf : ∃ t ∈ resourceTypes, has f.filterOption t = true) :
    f.matches url (resolveContext url 0 dom) dom bloom = .ok false := by
  cases dom with
  | none =>
    obtain ⟨t, ht, hft⟩ := hf
    exact C12_no_context f url none bloom t ht (.inl hft)
  | some d =>
    have hctx : resolveContext url 0 (some d) = FOThirdParty ∨ resolveContext url 0 (some d) = FONotThirdParty := by
      unfold resolveContext
      dsimp only
      rw [if_neg (by decide)]
      split
      · exact .inl (by decide)
      · exact .inr (by decide)
    have hno : ∀ t ∈ resourceTypes, has (resolveContext url 0 (some d)) t = false := by
      have hall : (resourceTypes.all fun t => !has FOThirdParty t && !has FONotThirdParty t) = true := by decide +kernel
      intro t ht
      have := List.all_eq_true.1 hall t ht
      simp only [Bool.and_eq_true, Bool.not_eq_true'] at this
      rcases hctx with h | h <;> rw [h]
      · exact this.1
      · exact this.2
    generalize resolveContext url 0 (some d) = ctx at hctx hno ⊢
    apply matches_eq_false_of_options
    apply Classical.byContradiction
    intro hm
    rw [Bool.not_eq_false] at hm
    obtain ⟨t, ht, hft⟩ := hf
    have hb := resource_not_behavioral ht hft
    have hn : has (f.filterOption &&& FOResourcesOnly) ctx = false := by
      rw [← Bool.not_eq_true, has_and_resource]
      rintro ⟨t, ht, _, h⟩
      rw [hno t ht] at h; cases h
    have hz : ctx ≠ 0#32 := by
      rcases hctx with h | h <;> rw [h] <;> decide
    simp [Filter.matchesOptions, hz, hb, hn] at hm

example : ∃ t ∈ resourceTypes, has (({} : Filter).parseOptions bs%"script,third-party").filterOption t = true :=
  ⟨FOScript, by simp [resourceTypes], by decide +kernel⟩

/-- **C53, violated part**: the options `collapse` and `donottrack`, which are not about which requests a
rule is for either, are taken for resource types: a rule with one of them, and without types, is not
applied to any request of a known type or from a known page. -/
theorem C53_collapse_and_donottrack (f : Filter) (url : Bytes) (ctx : Mask) (dom : Option Bytes) (bloom : Option (Bytes → Bool))
    (hf : has f.filterOption (FOCollapse ||| FODoNotTrack) = true) (ht : ∀ t ∈ resourceTypes, has f.filterOption t = false)
    (hctx : ctx ≠ 0#32) : f.matches url ctx dom bloom = .ok false := by
  apply matches_eq_false_of_options
  have hb : (f.filterOption &&& ~~~BehavioralFilterOnly) ≠ 0#32 := by
    rw [and_ne_zero_iff]
    exact has_mono (by decide) hf
  have hn : has (f.filterOption &&& FOResourcesOnly) ctx = false := by
    rw [← Bool.not_eq_true, has_and_resource]
    rintro ⟨t, h1, h2, _⟩
    rw [ht t h1] at h2; cases h2
  simp [Filter.matchesOptions, hctx, hb, hn]

/-- **C53, violated part**, concretely: a script is blocked by `advert`, but not by `advert$collapse`. -/
theorem C53_counterexample (E : Env) (hroll : ∀ url, E.fp.rolls url) :
    (∃ c, (Client.fresh E).parse bs%"advert" false = .ok c ∧
      ∃ o, c.query bs%"http://a.com/advert" FOScript none = .ok o ∧ o.block = true) ∧
    (∃ c, (Client.fresh E).parse bs%"advert$collapse" false = .ok c ∧
      ∃ o, c.query bs%"http://a.com/advert" FOScript none = .ok o ∧ o.block = false) ∧
    (∃ c, (Client.fresh E).parse bs%"advert$donottrack" false = .ok c ∧
      ∃ o, c.query bs%"http://a.com/advert" FOScript none = .ok o ∧ o.block = false) := by
  refine ⟨?_, ?_, ?_⟩
  · obtain ⟨c, h1, o, h2, h3⟩ := single_rule E { text := bs%"advert" } (by decide +kernel) (by decide +kernel) rfl
      (by decide +kernel) (by decide +kernel) (by decide +kernel) bs%"http://a.com/advert" (by decide +kernel) (by decide) (hroll _) FOScript none
    exact ⟨c, h1, o, h2, h3.2 (by decide +kernel)⟩
  · obtain ⟨c, h1, o, h2, h3⟩ := single_rule E { text := bs%"advert", options := some bs%"collapse" } (by decide +kernel) (by decide +kernel) rfl
      (by decide +kernel) (by decide +kernel) (by decide +kernel) bs%"http://a.com/advert" (by decide +kernel) (by decide) (hroll _) FOScript none
    refine ⟨c, h1, o, h2, ?_⟩
    rw [← Bool.not_eq_true, h3]
    decide +kernel
  · obtain ⟨c, h1, o, h2, h3⟩ := single_rule E { text := bs%"advert", options := some bs%"donottrack" } (by decide +kernel) (by decide +kernel) rfl
      (by decide +kernel) (by decide +kernel) (by decide +kernel) bs%"http://a.com/advert" (by decide +kernel) (by decide) (hroll _) FOScript none
    refine ⟨c, h1, o, h2, ?_⟩
    rw [← Bool.not_eq_true, h3]
    decide +kernel

end AdBlock
