import Verif.Lemmas.Options
import Verif.Model.Client
/-!
Properties of rule options: `domain=` (C11), resource types (C12), party (C13),
unsupported options (C14), option names (C41).
-/
namespace AdBlock
open Spec

/-! ### C11 -/

theorem covers_eq_of_length {s s' cd : Bytes} (h : Covers s cd) (h' : Covers s' cd)
    (hl : s.length = s'.length) : s = s' := by
  have suf : ∀ {x : Bytes}, Covers x cd → x <:+ cd := by
    rintro x ⟨rfl | ⟨sub, rfl⟩, _⟩
    · exact List.suffix_refl _
    · exact ⟨sub ++ [ch%'.'], by simp⟩
  exact List.IsSuffix.eq_of_length (List.suffix_of_suffix_length_le (suf h) (suf h') (by omega)) hl

/-- **C11**: the most specific listed name decides whether a rule with a `domain=` list
applies; if none is listed the rule applies iff the list has no positive entry. -/
theorem C11_most_specific_domain_decides (f : Filter) (dl : Bytes) (h : f.domainList = some dl)
    (cd : Bytes) :
    (∀ s, Covers s cd → (s ∈ positive dl ∨ s ∈ negative dl) →
      (∀ s', Covers s' cd → (s' ∈ positive dl ∨ s' ∈ negative dl) → s'.length ≤ s.length) →
      (f.contextDomainMatchesFilter cd = true ↔ s ∈ positive dl)) ∧
    ((∀ s, Covers s cd → s ∉ positive dl ∧ s ∉ negative dl) →
      (f.contextDomainMatchesFilter cd = true ↔ positive dl = [])) := by
  have hd := domains_eq h
  have ha := antiDomains_eq h
  have spec := contextDomainLoop_spec f [] cd (by simp)
  simp only [List.nil_append] at spec
  have hcount : ∀ a, f.getDomainCount a = if a then (negative dl).length else (positive dl).length := by
    intro a; simp only [Filter.getDomainCount, hd, ha]
  rw [hd, ha] at spec
  constructor
  · intro s hs hl hmax
    have hnz : (f.getDomainCount false == 0 && f.getDomainCount true == 0) = false := by
      rw [hcount, hcount]
      rcases hl with hl | hl
      · have := List.ne_nil_of_mem hl; simp [this]
      · have := List.ne_nil_of_mem hl; simp [this]
    simp only [Filter.contextDomainMatchesFilter, hnz, Bool.false_eq_true, ↓reduceIte]
    cases hloop : f.contextDomainLoop cd cd with
    | none =>
      rw [hloop] at spec
      have := spec s hs
      rcases hl with hl | hl
      · exact absurd hl this.1
      · exact absurd hl this.2
    | some b =>
      rw [hloop] at spec
      obtain ⟨s', a1, a2, a3, a4⟩ := spec
      have e : s = s' :=
        covers_eq_of_length hs a1 (Nat.le_antisymm (a4 s hs hl) (hmax s' a1 a2))
      simp only [a3, e]
  · intro hnone
    have hloop : f.contextDomainLoop cd cd = none := by
      cases hl : f.contextDomainLoop cd cd with
      | none => rfl
      | some b =>
        rw [hl] at spec
        obtain ⟨s', a1, a2, _⟩ := spec
        rcases a2 with a2 | a2
        · exact absurd a2 (hnone s' a1).1
        · exact absurd a2 (hnone s' a1).2
    simp only [Filter.contextDomainMatchesFilter, hloop, hcount]
    by_cases hp : positive dl = []
    · simp [hp]
    · have : (positive dl).length ≠ 0 := by simpa using hp
      simp [hp]

/-- **C11**: a rule whose `domain=` list rules out the context domain never matches; one
whose list admits it behaves as if it had no list. -/
theorem C11_domain_list_effect (f : Filter) (cd url : Bytes) (ctx : Mask)
    (bloom : Option (Bytes → Bool)) :
    (f.contextDomainMatchesFilter cd = true →
      f.matches url ctx (some cd) bloom = { f with domainList := none }.matches url ctx (some cd) bloom) ∧
    (f.domainList ≠ none → f.contextDomainMatchesFilter cd = false →
      f.matches url ctx (some cd) bloom = .ok false) := by
  constructor
  · intro h
    have : f.matchesOptions ctx (some cd) = { f with domainList := none }.matchesOptions ctx (some cd) := by
      have h1 : f.domainCheckFails (some cd) = false := by
        unfold Filter.domainCheckFails
        cases f.domainList <;> simp [h]
      have h2 : { f with domainList := none }.domainCheckFails (some cd) = false := rfl
      simp only [Filter.matchesOptions, Filter.hasUnsupportedOptions, h1, h2]
    exact matches_congr this rfl rfl rfl rfl url bloom
  · intro hd h
    have : f.matchesOptions ctx (some cd) = false := by
      obtain ⟨dl, hd⟩ := Option.ne_none_iff_exists'.1 hd
      have h1 : f.domainCheckFails (some cd) = true := by simp [Filter.domainCheckFails, hd, h]
      simp [Filter.matchesOptions, h1]
    simp [Filter.matches, this]

example : let f : Filter := { domainList := some bs%"brave.com|~shop.brave.com" }
    f.contextDomainMatchesFilter bs%"www.brave.com" = true ∧
    f.contextDomainMatchesFilter bs%"www.shop.brave.com" = false ∧
    f.contextDomainMatchesFilter bs%"notbrave.com" = false := by decide +kernel
example : Covers bs%"shop.brave.com" bs%"www.shop.brave.com" ∧
    bs%"shop.brave.com" ∈ negative bs%"brave.com|~shop.brave.com" :=
  ⟨⟨.inr ⟨bs%"www", by decide +kernel⟩, by decide +kernel⟩, by decide +kernel⟩

/-! ### C12 -/

theorem matchesOptions_of_matches {f : Filter} {url : Bytes} {ctx : Mask} {dom : Option Bytes}
    {bloom : Option (Bytes → Bool)} (h : f.matches url ctx dom bloom = .ok true) :
    f.matchesOptions ctx dom = true := by
  by_cases hm : f.matchesOptions ctx dom = true
  · exact hm
  · simp [Filter.matches, hm] at h

theorem matches_eq_false_of_options {f : Filter} {url : Bytes} {ctx : Mask} {dom : Option Bytes}
    {bloom : Option (Bytes → Bool)} (h : f.matchesOptions ctx dom = false) :
    f.matches url ctx dom bloom = .ok false := by
  simp [Filter.matches, h]

theorem resource_bit {x : Mask} : has x FOResourcesOnly = true ↔ ∃ t ∈ resourceTypes, has x t = true := by
  simp only [FOResourcesOnly, has_or_right, resourceTypes, List.mem_cons, List.not_mem_nil, or_false,
    exists_eq_or_imp, exists_eq_left, Bool.or_eq_true, or_assoc]

theorem resource_isBit : ∀ t ∈ resourceTypes, ∃ k : Fin 32, t = BitVec.twoPow 32 k.val := by
  intro t ht
  simp only [resourceTypes, List.mem_cons, List.not_mem_nil, or_false] at ht
  rcases ht with rfl | rfl | rfl | rfl | rfl | rfl | rfl | rfl | rfl | rfl | rfl | rfl | rfl | rfl | rfl
  · exact ⟨0, rfl⟩
  · exact ⟨1, rfl⟩
  · exact ⟨2, rfl⟩
  · exact ⟨3, rfl⟩
  · exact ⟨4, rfl⟩
  · exact ⟨5, rfl⟩
  · exact ⟨6, rfl⟩
  · exact ⟨7, rfl⟩
  · exact ⟨8, rfl⟩
  · exact ⟨9, rfl⟩
  · exact ⟨19, rfl⟩
  · exact ⟨20, rfl⟩
  · exact ⟨21, rfl⟩
  · exact ⟨25, rfl⟩
  · exact ⟨15, rfl⟩

theorem has_and_bit (x y : Mask) {t : Mask} {k : Nat} (hk : k < 32) (ht : t = BitVec.twoPow 32 k) :
    has (x &&& t) y = (has x t && has y t) := by
  have hne : BitVec.twoPow 32 k ≠ 0#32 := by
    intro h
    have := congrArg (fun v => BitVec.getLsbD v k) h
    simp [hk] at this
  subst ht
  unfold has
  rw [BitVec.and_twoPow, BitVec.and_twoPow]
  split
  · rw [BitVec.and_comm, BitVec.and_twoPow]
    simp [hne]
  · simp

theorem has_and_resource {x y : Mask} :
    has (x &&& FOResourcesOnly) y = true ↔ ∃ t ∈ resourceTypes, has x t = true ∧ has y t = true := by
  have h1 : has (x &&& FOResourcesOnly) y = true ↔ ∃ t ∈ resourceTypes, has (x &&& t) y = true := by
    simp only [FOResourcesOnly, BitVec.and_or_distrib_left, has_or_left, resourceTypes,
      List.mem_cons, List.not_mem_nil, or_false, exists_eq_or_imp, exists_eq_left, Bool.or_eq_true,
      or_assoc]
  rw [h1]
  constructor
  · rintro ⟨t, ht, h⟩
    obtain ⟨k, hk⟩ := resource_isBit t ht
    rw [has_and_bit x y k.isLt hk, Bool.and_eq_true] at h
    exact ⟨t, ht, h⟩
  · rintro ⟨t, ht, h⟩
    obtain ⟨k, hk⟩ := resource_isBit t ht
    exact ⟨t, ht, by rw [has_and_bit x y k.isLt hk, Bool.and_eq_true]; exact h⟩

theorem resource_not_behavioral {x t : Mask} (ht : t ∈ resourceTypes) (h : has x t = true) :
    (x &&& ~~~BehavioralFilterOnly) ≠ 0#32 := by
  have h1 := resource_bit.2 ⟨t, ht, h⟩
  rw [and_ne_zero_iff]
  exact has_mono (by decide) h1

/-- **C12**: a rule restricted to resource types only matches requests of one of them. -/
theorem C12_only_listed_types (f : Filter) (url : Bytes) (ctx : Mask) (dom : Option Bytes)
    (bloom : Option (Bytes → Bool)) (h : f.matches url ctx dom bloom = .ok true) (hctx : ctx ≠ 0#32)
    (hf : ∃ t ∈ resourceTypes, has f.filterOption t = true) :
    ∃ t ∈ resourceTypes, has f.filterOption t = true ∧ has ctx t = true := by
  have ho := matchesOptions_of_matches h
  obtain ⟨t, ht, hft⟩ := hf
  have hb := resource_not_behavioral ht hft
  rw [← has_and_resource]
  apply Decidable.byContradiction
  intro hn
  have hn : has (f.filterOption &&& FOResourcesOnly) ctx = false := by simpa using hn
  simp [Filter.matchesOptions, hctx, hb, hn] at ho

/-- **C12**: a rule excluding resource types never matches a request of an excluded type. -/
theorem C12_never_excluded_types (f : Filter) (url : Bytes) (ctx : Mask) (dom : Option Bytes)
    (bloom : Option (Bytes → Bool)) (t : Mask) (ht : t ∈ resourceTypes)
    (hf : has f.antiFilterOption t = true) (hctx : has ctx t = true) :
    f.matches url ctx dom bloom = .ok false := by
  apply matches_eq_false_of_options
  have hb := resource_not_behavioral ht hf
  have hi := has_and_resource.2 ⟨t, ht, hf, hctx⟩
  have hz : ctx ≠ 0#32 := by rintro rfl; simp at hctx
  simp [Filter.matchesOptions, hz, hb, hi]

/-- **C12**: without any context, a rule mentioning a resource type never matches. -/
theorem C12_no_context (f : Filter) (url : Bytes) (dom : Option Bytes)
    (bloom : Option (Bytes → Bool)) (t : Mask) (ht : t ∈ resourceTypes)
    (hf : has f.filterOption t = true ∨ has f.antiFilterOption t = true) :
    f.matches url 0 dom bloom = .ok false := by
  apply matches_eq_false_of_options
  rcases hf with hf | hf
  · have := resource_bit.2 ⟨t, ht, hf⟩
    simp [Filter.matchesOptions, this]
  · have := resource_bit.2 ⟨t, ht, hf⟩
    simp [Filter.matchesOptions, this]

/-- **C12**: a request for a document is only matched by rules with the document option. -/
theorem C12_document (f : Filter) (url : Bytes) (ctx : Mask) (dom : Option Bytes)
    (bloom : Option (Bytes → Bool)) (h : has ctx FODocument = true)
    (hf : has f.filterOption FODocument = false) :
    f.matches url ctx dom bloom = .ok false := by
  apply matches_eq_false_of_options
  simp [Filter.matchesOptions, h, hf]

/-- **C12**: and the listed types suffice: for a request (of a known type, not a
document) of a listed and not excluded type, a rule with only resource type options behaves
like the same rule without options. -/
theorem C12_listed_types_suffice (f : Filter) (url : Bytes) (ctx : Mask) (dom : Option Bytes)
    (bloom : Option (Bytes → Bool))
    (honly : f.filterOption &&& ~~~FOResourcesOnly = 0#32)
    (hanti : f.antiFilterOption &&& ~~~FOResourcesOnly = 0#32)
    (hdoc : has ctx FODocument = false)
    (hin : f.filterOption = 0#32 ∧ ctx ≠ 0#32 ∨
      ∃ t ∈ resourceTypes, has f.filterOption t = true ∧ has ctx t = true)
    (hout : ∀ t ∈ resourceTypes, has f.antiFilterOption t = true → has ctx t = false) :
    f.matches url ctx dom bloom =
      { f with filterOption := 0, antiFilterOption := 0 }.matches url ctx dom bloom := by
  have sub : ∀ {x m : Mask}, x &&& ~~~FOResourcesOnly = 0#32 → m &&& ~~~FOResourcesOnly = m →
      has x m = false := by
    intro x m hx hm
    rw [and_eq_zero_iff] at hx
    apply Decidable.byContradiction
    intro hn
    have := has_mono hm (by simpa using hn)
    rw [hx] at this; simp at this
  have hz : ctx ≠ 0#32 := by
    rcases hin with h | ⟨t, _, _, h⟩
    · exact h.2
    · rintro rfl; simp at h
  have hU : has f.filterOption FOUnsupportedSoSkipCheck = false := sub honly (by decide)
  have hT : has f.filterOption FOThirdParty = false := sub honly (by decide)
  have hT' : has f.antiFilterOption FOThirdParty = false := sub hanti (by decide)
  have hA : has (f.antiFilterOption &&& FOResourcesOnly) ctx = false := by
    apply Decidable.byContradiction
    intro hn
    obtain ⟨t, ht, h1, h2⟩ := has_and_resource.1 (by simpa using hn)
    rw [hout t ht h1] at h2; simp at h2
  have hI : ((f.filterOption &&& ~~~BehavioralFilterOnly) != 0
        && !has (f.filterOption &&& FOResourcesOnly) ctx) = false := by
    rcases hin with ⟨h, _⟩ | h
    · simp [h]
    · simp [has_and_resource.2 h]
  have : f.matchesOptions ctx dom =
      { f with filterOption := 0, antiFilterOption := 0 }.matchesOptions ctx dom := by
    have hcd := domainCheckFails_congr (f := f)
      (g := { f with filterOption := 0, antiFilterOption := 0 }) rfl dom
    have hz' : (ctx == 0#32) = false := by simpa using hz
    unfold Filter.matchesOptions Filter.hasUnsupportedOptions
    rw [hU, hT, hT', hA, hI, hdoc, hcd]
    simp [hz']
  exact matches_congr this rfl rfl rfl rfl url bloom

example : ∃ f : Filter, (∃ t ∈ resourceTypes, has f.filterOption t = true) ∧
    f.matches bs%"http://a.com/ad.png" FOImage none none = .ok true ∧
    f.matches bs%"http://a.com/ad.png" FOScript none none = .ok false ∧
    f.matches bs%"http://a.com/ad.png" 0 none none = .ok false :=
  ⟨{ data := some (cstr bs%"/ad."), filterOption := FOImage },
    ⟨FOImage, by simp [resourceTypes], by decide⟩, by decide +kernel, by decide +kernel, by decide +kernel⟩
example : ({ data := some (cstr bs%"/ad."), antiFilterOption := FOImage } : Filter).matches
    bs%"http://a.com/ad.png" FOImage none none = .ok false := by decide +kernel
example : ({ data := some (cstr bs%"/ad."), antiFilterOption := FOImage } : Filter).matches
    bs%"http://a.com/ad.png" FOScript none none = .ok true := by decide +kernel

/-! ### C13 -/

/-- **C13**: `third-party` rules never match first-party requests, and `~third-party`
rules never match third-party requests.  The full statement of C13 includes that
`first-party` means `~third-party`; that part is false, see `C13_first_party_ignored`. -/
theorem C13_third_party_partial (f : Filter) (url : Bytes) (ctx : Mask) (dom : Option Bytes)
    (bloom : Option (Bytes → Bool)) :
    (has f.filterOption FOThirdParty = true → has ctx FONotThirdParty = true →
      f.matches url ctx dom bloom = .ok false) ∧
    (has f.antiFilterOption FOThirdParty = true → has ctx FOThirdParty = true →
      f.matches url ctx dom bloom = .ok false) := by
  constructor
  · intro h1 h2
    apply matches_eq_false_of_options
    simp [Filter.matchesOptions, has_or_right, h1, h2]
  · intro h1 h2
    apply matches_eq_false_of_options
    simp [Filter.matchesOptions, has_or_right, h1, h2]

/-- **C13** with the automatic classification of C07: a `third-party` rule never matches a
request to the context domain or its subdomains, a `~third-party` rule never matches any
other request. -/
theorem C13_third_party_by_host_partial (f : Filter) (url : Bytes) (ctx : Mask) (dom : Bytes)
    (bloom : Option (Bytes → Bool)) (h : ctx &&& (FOThirdParty ||| FONotThirdParty) = 0#32) :
    (has f.filterOption FOThirdParty = true → SameSite dom (getUrlHost url) →
      f.matches url (resolveContext url ctx (some dom)) (some dom) bloom = .ok false) ∧
    (has f.antiFilterOption FOThirdParty = true → ¬ SameSite dom (getUrlHost url) →
      f.matches url (resolveContext url ctx (some dom)) (some dom) bloom = .ok false) := by
  have h' : has ctx (FOThirdParty ||| FONotThirdParty) = false := by simp [has, h]
  rw [← isThirdPartyHost_eq_false_iff]
  constructor
  · intro h1 h2
    refine (C13_third_party_partial f url _ _ bloom).1 h1 ?_
    simp [resolveContext, h', h2, has_or_left]; exact .inr (by decide)
  · intro h1 h2
    refine (C13_third_party_partial f url _ _ bloom).2 h1 ?_
    have h2 : isThirdPartyHost dom (getUrlHost url) = true := by simpa using h2
    simp [resolveContext, h', h2, has_or_left]; exact .inr (by decide)

/-- **C13, violated part**: the option `first-party` has no effect at all, on any rule and
request. -/
theorem C13_first_party_ignored (f : Filter) (url : Bytes) (ctx : Mask) (dom : Option Bytes)
    (bloom : Option (Bytes → Bool)) :
    { f with filterOption := f.filterOption ||| FONotThirdParty }.matches url ctx dom bloom =
      f.matches url ctx dom bloom := by
  have e : ∀ x m : Mask, FONotThirdParty &&& m = 0#32 → (x ||| FONotThirdParty) &&& m = x &&& m := by
    intro x m hm
    rw [BitVec.and_comm, BitVec.and_or_distrib_left, BitVec.and_comm (y := FONotThirdParty), hm,
      BitVec.or_zero, BitVec.and_comm]
  have e1 := e f.filterOption (~~~BehavioralFilterOnly) (by decide)
  have e2 := e f.filterOption FOResourcesOnly (by decide)
  have h1 : has (f.filterOption ||| FONotThirdParty) FODocument = has f.filterOption FODocument := by
    unfold has; rw [e _ _ (by decide)]
  have h2 : has (f.filterOption ||| FONotThirdParty) FOUnsupportedSoSkipCheck =
      has f.filterOption FOUnsupportedSoSkipCheck := by
    unfold has; rw [e _ _ (by decide)]
  have h3 : has (f.filterOption ||| FONotThirdParty) FOThirdParty = has f.filterOption FOThirdParty := by
    unfold has; rw [e _ _ (by decide)]
  have h4 : has (f.filterOption ||| FONotThirdParty) FOResourcesOnly =
      has f.filterOption FOResourcesOnly := by
    unfold has; rw [e2]
  have : { f with filterOption := f.filterOption ||| FONotThirdParty }.matchesOptions ctx dom =
      f.matchesOptions ctx dom := by
    have hcd := domainCheckFails_congr
      (f := { f with filterOption := f.filterOption ||| FONotThirdParty }) (g := f) rfl dom
    unfold Filter.matchesOptions Filter.hasUnsupportedOptions
    rw [e1, e2, h1, h2, h3, h4, hcd]
  exact matches_congr this rfl rfl rfl rfl url bloom

/-- **C13, violated part**, concretely: `ad$first-party` matches a third-party request. -/
theorem C13_first_party_counterexample :
    ∃ f : Filter, f = ({ data := some (cstr bs%"ad") } : Filter).parseOptions bs%"first-party" ∧
      has f.filterOption FONotThirdParty = true ∧
      f.matches bs%"http://ads.com/" FOThirdParty (some bs%"brave.com") none = .ok true :=
  ⟨_, rfl, by decide +kernel, by decide +kernel⟩

example : let f : Filter := { data := some (cstr bs%"ad"), filterOption := FOThirdParty }
    f.matches bs%"http://ads.com/" FOThirdParty none none = .ok true ∧
    f.matches bs%"http://ads.com/" FONotThirdParty none none = .ok false := by decide +kernel
example : SameSite bs%"brave.com" (getUrlHost bs%"http://x.brave.com/ad") :=
  .inr ⟨bs%"x", by decide +kernel⟩

/-! ### C41 and C14 -/

/-- **C41**: every documented option name stands for its own bit. -/
theorem C41_names : ∀ e ∈ optionTable, optionBit e.1 = e.2 := by decide +kernel

/-- the documented bits are different from one another -/
theorem C41_bits_distinct : ∀ e ∈ optionTable, ∀ e' ∈ optionTable, has e.2 e'.2 = true → e = e' := by
  decide +kernel

theorem parseOption_filterOption (f : Filter) (o : Bytes) (m : Mask) :
    has (f.parseOption o).filterOption m = true ↔
      has f.filterOption m = true ∨ (o.head? ≠ some ch%'~' ∧ HasBit o ∧ has (optionBit o) m = true) := by
  unfold HasBit
  by_cases ha : o.head? = some ch%'~'
  · obtain ⟨o', rfl⟩ : ∃ o', o = ch%'~' :: o' := by cases o <;> simp_all
    rw [parseOption_anti]
    simp only [List.head?_cons, ne_eq, not_true_eq_false, false_and, or_false]
    split
    · rfl
    · split <;> rfl
  · rw [parseOption_plain ha]
    split
    · rename_i h; simp only [h, not_true_eq_false, false_and, and_false, or_false]
    · rename_i h
      split
      · rename_i h'; simp only [h', not_true_eq_false, false_and, and_false, or_false]
      · rename_i h'
        simp only [has_or_left, Bool.or_eq_true, h, h', ha, ne_eq, not_false_eq_true, and_self,
          true_and]

theorem parseOption_antiFilterOption (f : Filter) (o : Bytes) (m : Mask) :
    has (f.parseOption o).antiFilterOption m = true ↔
      has f.antiFilterOption m = true ∨
        ∃ o', o = ch%'~' :: o' ∧ HasBit o' ∧ has (optionBit o') m = true := by
  unfold HasBit
  by_cases ha : o.head? = some ch%'~'
  · obtain ⟨o', rfl⟩ : ∃ o', o = ch%'~' :: o' := by cases o <;> simp_all
    have : (∃ o'', ch%'~' :: o' = ch%'~' :: o'' ∧ (¬ bs%"domain=" <+: o'' ∧ ¬ bs%"tag=" <+: o'') ∧
        has (optionBit o'') m = true) ↔
        ((¬ bs%"domain=" <+: o' ∧ ¬ bs%"tag=" <+: o') ∧ has (optionBit o') m = true) := by
      constructor
      · rintro ⟨o'', h, h'⟩
        rw [List.cons.injEq] at h
        rw [h.2]; exact h'
      · intro h; exact ⟨o', rfl, h⟩
    rw [this, parseOption_anti]
    split
    · rename_i h; simp only [h, not_true_eq_false, false_and, or_false]
    · rename_i h
      split
      · rename_i h'; simp only [h', not_true_eq_false, false_and, and_false, or_false]
      · rename_i h'
        simp only [has_or_left, Bool.or_eq_true, h, h', not_false_eq_true, and_self, true_and]
  · have : ¬ ∃ o', o = ch%'~' :: o' ∧ (¬ bs%"domain=" <+: o' ∧ ¬ bs%"tag=" <+: o') ∧
        has (optionBit o') m = true := by
      rintro ⟨o', rfl, _⟩; simp at ha
    rw [parseOption_plain ha]
    simp only [this, or_false]
    split
    · rfl
    · split <;> rfl

theorem foldl_filterOption (opts : List Bytes) (f : Filter) (m : Mask) :
    has (opts.foldl Filter.parseOption f).filterOption m = true ↔
      has f.filterOption m = true ∨
        ∃ o ∈ opts, o.head? ≠ some ch%'~' ∧ HasBit o ∧ has (optionBit o) m = true := by
  induction opts generalizing f with
  | nil => simp
  | cons o opts ih =>
    simp only [List.foldl_cons, ih, parseOption_filterOption, List.mem_cons, exists_eq_or_imp, or_assoc]

theorem foldl_antiFilterOption (opts : List Bytes) (f : Filter) (m : Mask) :
    has (opts.foldl Filter.parseOption f).antiFilterOption m = true ↔
      has f.antiFilterOption m = true ∨
        ∃ o', ch%'~' :: o' ∈ opts ∧ HasBit o' ∧ has (optionBit o') m = true := by
  induction opts generalizing f with
  | nil => simp
  | cons o opts ih =>
    simp only [List.foldl_cons, ih, parseOption_antiFilterOption, List.mem_cons, or_assoc]
    constructor
    · rintro (h | ⟨o', h, h'⟩ | ⟨o', h, h'⟩)
      · exact .inl h
      · exact .inr ⟨o', .inl h.symm, h'⟩
      · exact .inr ⟨o', .inr h, h'⟩
    · rintro (h | ⟨o', h | h, h'⟩)
      · exact .inl h
      · exact .inr (.inl ⟨o', h.symm, h'⟩)
      · exact .inr (.inr ⟨o', h, h'⟩)

/-- **C41**: the bits of an option list are exactly those of its entries, in any order and
position. -/
theorem C41_option_list (f : Filter) (text : Bytes) (ht : ∀ c ∈ text, c ≠ 0 ∧ c ≠ 13 ∧ c ≠ 10)
    (m : Mask) :
    (has (f.parseOptions text).filterOption m = true ↔
      ∃ o ∈ splitOn ch%',' text, o.head? ≠ some ch%'~' ∧ HasBit o ∧ has (optionBit o) m = true) ∧
    (has (f.parseOptions text).antiFilterOption m = true ↔
      ∃ o, ch%'~' :: o ∈ splitOn ch%',' text ∧ HasBit o ∧ has (optionBit o) m = true) := by
  rw [parseOptions_eq f text ht, foldl_filterOption, foldl_antiFilterOption]
  simp

theorem optionTable_plain : ∀ e ∈ optionTable, e.1.head? ≠ some ch%'~' ∧ HasBit e.1 := by
  unfold HasBit
  decide +kernel

/-- **C41**: in an option list consisting of documented names (with or without `~`),
`domain=` and `tag=`, a documented bit is set iff its name is listed, and excluded iff its
name is listed with `~`. -/
theorem C41_documented_options (f : Filter) (text : Bytes)
    (ht : ∀ c ∈ text, c ≠ 0 ∧ c ≠ 13 ∧ c ≠ 10)
    (hdoc : ∀ o ∈ splitOn ch%',' text, ∀ o', (o = o' ∨ o = ch%'~' :: o') → o'.head? ≠ some ch%'~' →
      HasBit o' → ∃ e ∈ optionTable, o' = e.1)
    (e : Bytes × Mask) (he : e ∈ optionTable) :
    (has (f.parseOptions text).filterOption e.2 = true ↔ e.1 ∈ splitOn ch%',' text) ∧
    (has (f.parseOptions text).antiFilterOption e.2 = true ↔
      (ch%'~' :: e.1 ∈ splitOn ch%',' text ∨
        ∃ o, ch%'~' :: ch%'~' :: o ∈ splitOn ch%',' text ∧
          has (optionBit (ch%'~' :: o)) e.2 = true)) := by
  have hself : has e.2 e.2 = true := by
    have : ∀ e ∈ optionTable, has e.2 e.2 = true := by decide +kernel
    exact this e he
  constructor
  · rw [(C41_option_list f text ht _).1]
    constructor
    · rintro ⟨o, ho, h1, h2, h3⟩
      obtain ⟨e', he', rfl⟩ := hdoc o ho o (.inl rfl) h1 h2
      rw [C41_names e' he'] at h3
      rw [← C41_bits_distinct e' he' e he h3]; exact ho
    · intro h
      have := optionTable_plain e he
      exact ⟨e.1, h, this.1, this.2, by rw [C41_names e he]; exact hself⟩
  · rw [(C41_option_list f text ht _).2]
    constructor
    · rintro ⟨o, ho, h2, h3⟩
      by_cases h1 : o.head? = some ch%'~'
      · obtain ⟨o', rfl⟩ : ∃ o', o = ch%'~' :: o' := by cases o <;> simp_all
        exact .inr ⟨o', ho, h3⟩
      · obtain ⟨e', he', rfl⟩ := hdoc _ ho o (.inr rfl) h1 h2
        rw [C41_names e' he'] at h3
        rw [← C41_bits_distinct e' he' e he h3]; exact .inl ho
    · rintro (h | ⟨o, h, h'⟩)
      · have := optionTable_plain e he
        exact ⟨e.1, h, this.2, by rw [C41_names e he]; exact hself⟩
      · refine ⟨ch%'~' :: o, h, ?_, h'⟩
        constructor <;> (intro h; simp at h)

/-- **C41**: a text that is not a prefix of a documented name, nor starts with `csp=` or
`redirect=`, is an unknown option. -/
theorem C41_unknown (o : Bytes) (h : ∀ e ∈ optionTable, ¬ o <+: e.1)
    (h1 : ¬ bs%"csp=" <+: o) (h2 : ¬ bs%"redirect=" <+: o) : optionBit o = FOUnknown := by
  have t1 : findOption o optionNames1 = none := by
    rw [findOption_none_iff]
    intro e he
    exact h e ((by decide +kernel : ∀ e ∈ optionNames1, e ∈ optionTable) e he)
  have t2 : findOption o optionNames2 = none := by
    rw [findOption_none_iff]
    intro e he
    exact h e ((by decide +kernel : ∀ e ∈ optionNames2, e ∈ optionTable) e he)
  have c1 : (decide (o.length ≥ 4) && strncmpEq o bs%"csp=" 4) = false := by
    have := lit_prefix_iff o bs%"csp="
    simp only [List.length_cons, List.length_nil] at this
    simpa [h1] using this
  have c2 : (decide (o.length ≥ 9) && strncmpEq o bs%"redirect=" 9) = false := by
    have := lit_prefix_iff o bs%"redirect="
    simp only [List.length_cons, List.length_nil] at this
    simpa [h2] using this
  simp only [optionBit, t1, t2, c1, c2]
  rfl

theorem findOption_isSome_mem {o : Bytes} {t : List (Bytes × Mask)} {m : Mask}
    (h : findOption o t = some m) : ∃ e ∈ t, o <+: e.1 ∧ m = e.2 := by
  induction t with
  | nil => simp [findOption] at h
  | cons e t ih =>
    obtain ⟨n, m'⟩ := e
    simp only [findOption] at h
    split at h
    · rename_i hp
      simp at h
      exact ⟨(n, m'), by simp, (strncmpEq_self_iff o n).1 hp, h.symm⟩
    · obtain ⟨e, he, h'⟩ := ih h
      exact ⟨e, by simp [he], h'⟩

theorem findOption_eq (o : Bytes) (t : List (Bytes × Mask)) :
    findOption o t = (t.find? fun e => o.isPrefixOf e.1).map (·.2) := by
  induction t with
  | nil => rfl
  | cons e t ih =>
    obtain ⟨n, m⟩ := e
    have : strncmpEq o n o.length = o.isPrefixOf n := by
      rw [Bool.eq_iff_iff, strncmpEq_self_iff, List.isPrefixOf_iff_prefix]
    simp only [findOption, List.find?_cons, this]
    cases o.isPrefixOf n
    · exact ih
    · rfl

/-- **C41**: what every option (without its `~`, and other than `domain=` and `tag=`) means.  It stands for the first
documented name that begins with it; if there is none, it is `csp=...`, `redirect=...`, or unknown. -/
theorem C41_meaning (o : Bytes) :
    (∃ e ∈ optionTable, fullName o = some e.1 ∧ optionBit o = e.2) ∨
    (fullName o = none ∧ ((bs%"csp=" <+: o ∧ optionBit o = FOCSP) ∨ (bs%"redirect=" <+: o ∧ optionBit o = FORedirect) ∨
      (¬ bs%"csp=" <+: o ∧ ¬ bs%"redirect=" <+: o ∧ optionBit o = FOUnknown))) := by
  have ht : optionTable = optionNames1 ++ optionNames2 := rfl
  have hcsp : ((decide (o.length ≥ 4) && strncmpEq o bs%"csp=" 4) = true) ↔ bs%"csp=" <+: o := lit_prefix_iff o bs%"csp="
  have hred : ((decide (o.length ≥ 9) && strncmpEq o bs%"redirect=" 9) = true) ↔ bs%"redirect=" <+: o := lit_prefix_iff o bs%"redirect="
  have hval : ∀ {k : Bytes}, k ∈ [bs%"csp=", bs%"redirect="] → k <+: o → optionTable.find? (fun e => o.isPrefixOf e.1) = none := by
    intro k hk h
    rw [List.find?_eq_none]
    intro e he hp
    have : ∀ k ∈ [bs%"csp=", bs%"redirect="], ∀ e ∈ optionTable, ¬ k.isPrefixOf e.1 = true := by decide +kernel
    exact this k hk e he (List.isPrefixOf_iff_prefix.2 (h.trans (List.isPrefixOf_iff_prefix.1 hp)))
  unfold fullName
  cases hf : optionTable.find? (fun e => o.isPrefixOf e.1) with
  | some e =>
    left
    refine ⟨e, List.mem_of_find?_eq_some hf, rfl, ?_⟩
    have n1 : ¬ bs%"csp=" <+: o := fun h => by rw [hval (by simp) h] at hf; cases hf
    have n2 : ¬ bs%"redirect=" <+: o := fun h => by rw [hval (by simp) h] at hf; cases hf
    rw [ht, List.find?_append] at hf
    unfold optionBit
    rw [findOption_eq, findOption_eq, if_neg (mt hcsp.1 n1), if_neg (mt hred.1 n2)]
    cases h1 : optionNames1.find? (fun e => o.isPrefixOf e.1) with
    | some e' => rw [h1] at hf; cases hf; rfl
    | none => rw [h1, Option.none_or] at hf; rw [hf]; rfl
  | none =>
    right
    refine ⟨rfl, ?_⟩
    rw [ht, List.find?_append, Option.or_eq_none_iff] at hf
    unfold optionBit
    rw [findOption_eq, findOption_eq, hf.1, hf.2]
    simp only [Option.map_none]
    by_cases h1 : bs%"csp=" <+: o
    · exact .inl ⟨h1, if_pos (hcsp.2 h1)⟩
    · rw [if_neg (mt hcsp.1 h1)]
      by_cases h2 : bs%"redirect=" <+: o
      · exact .inr (.inl ⟨h2, if_pos (hred.2 h2)⟩)
      · exact .inr (.inr ⟨h1, h2, if_neg (mt hred.1 h2)⟩)

example : fullName bs%"im" = some bs%"image" ∧ fullName bs%"obj" = some bs%"object" ∧ fullName bs%"imagine" = none ∧
    fullName [] = some bs%"script" ∧ fullName bs%"gen" = some bs%"generichide" := by decide +kernel

/-- **C41**: every prefix of a documented name is accepted and stands for the bit of some
name it is a prefix of (or it starts with `csp=`/`redirect=`); the empty option means
`script`. -/
theorem C41_prefixes_accepted (o : Bytes) (e : Bytes × Mask) (he : e ∈ optionTable) (h : o <+: e.1) :
    (∃ e' ∈ optionTable, o <+: e'.1 ∧ optionBit o = e'.2) ∧ optionBit [] = FOScript := by
  refine ⟨?_, by decide⟩
  have key : ∀ e ∈ optionTable, ∀ n : Fin 18, ∃ e' ∈ optionTable,
      (e.1.take n.val).isPrefixOf e'.1 = true ∧ optionBit (e.1.take n.val) = e'.2 := by decide +kernel
  have hlen : ∀ e ∈ optionTable, e.1.length < 18 := by decide +kernel
  have hl := h.length_le
  obtain ⟨e', h1, h2, h3⟩ := key e he ⟨o.length, by have := hlen e he; omega⟩
  have ho : e.1.take o.length = o := by
    obtain ⟨r, hr⟩ := h; rw [← hr]; simp
  simp only [ho] at h2 h3
  exact ⟨e', h1, List.isPrefixOf_iff_prefix.1 h2, h3⟩

example : optionBit bs%"image" = FOImage ∧ optionBit bs%"im" = FOImage ∧
    optionBit bs%"ghost" = FOUnknown ∧ optionBit bs%"csp=script-src" = FOCSP := by decide +kernel
example : (({} : Filter).parseOptions bs%"third-party,~script,domain=a.com").filterOption = FOThirdParty ∧
    (({} : Filter).parseOptions bs%"third-party,~script,domain=a.com").antiFilterOption = FOScript ∧
    (({} : Filter).parseOptions bs%"third-party,~script,domain=a.com").domainList = some bs%"a.com" := by
  decide +kernel

/-- **C14**: a rule with an unsupported option never matches any request. -/
theorem C14_unsupported_never_matches (f : Filter)
    (h : ∃ m ∈ [FOPopup, FOCSP, FOElemHide, FOGenericHide, FOGenericBlock, FOEmpty, FOUnknown],
      has f.filterOption m = true)
    (url : Bytes) (ctx : Mask) (dom : Option Bytes) (bloom : Option (Bytes → Bool)) :
    f.matches url ctx dom bloom = .ok false := by
  apply matches_eq_false_of_options
  have : has f.filterOption FOUnsupportedSoSkipCheck = true := by
    obtain ⟨m, hm, h⟩ := h
    refine has_mono ?_ h
    simp only [List.mem_cons, List.not_mem_nil, or_false] at hm
    rcases hm with rfl | rfl | rfl | rfl | rfl | rfl | rfl <;> decide
  simp [Filter.matchesOptions, Filter.hasUnsupportedOptions, this]

theorem unsupported_bit (o : Bytes)
    (h : o ∈ [bs%"popup", bs%"elemhide", bs%"generichide", bs%"genericblock", bs%"empty"] ∨
      bs%"csp=" <+: o ∨ ((∀ e ∈ optionTable, ¬ o <+: e.1) ∧ ¬ bs%"redirect=" <+: o)) :
    ∃ m ∈ [FOPopup, FOCSP, FOElemHide, FOGenericHide, FOGenericBlock, FOEmpty, FOUnknown],
      has (optionBit o) m = true := by
  by_cases hc : bs%"csp=" <+: o
  · refine ⟨FOCSP, by simp, ?_⟩
    have : optionBit o = FOCSP := by
      have t1 : findOption o optionNames1 = none := by
        rw [findOption_none_iff]
        intro e he hp
        have hp' := hc.trans hp
        have : ∀ e ∈ optionNames1, ¬ (bs%"csp=").isPrefixOf e.1 = true := by decide +kernel
        exact this e he (List.isPrefixOf_iff_prefix.2 hp')
      have c1 : (decide (o.length ≥ 4) && strncmpEq o bs%"csp=" 4) = true :=
        (lit_prefix_iff o bs%"csp=").2 hc
      simp only [optionBit, t1, c1]
      rfl
    rw [this]; decide
  · rcases h with h | h | h
    · simp only [List.mem_cons, List.not_mem_nil, or_false] at h
      rcases h with rfl | rfl | rfl | rfl | rfl
      · exact ⟨FOPopup, by simp, by decide⟩
      · exact ⟨FOElemHide, by simp, by decide⟩
      · exact ⟨FOGenericHide, by simp, by decide⟩
      · exact ⟨FOGenericBlock, by simp, by decide⟩
      · exact ⟨FOEmpty, by simp, by decide⟩
    · exact absurd h hc
    · exact ⟨FOUnknown, by simp, by rw [C41_unknown o h.1 hc h.2]; decide⟩

/-- **C14**: in particular every rule whose option list contains one of the unsupported
names, or an option that is not a prefix of a documented name. -/
theorem C14_unsupported_option_text (f : Filter) (text : Bytes)
    (ht : ∀ c ∈ text, c ≠ 0 ∧ c ≠ 13 ∧ c ≠ 10) (o : Bytes) (ho : o ∈ splitOn ch%',' text)
    (hplain : o.head? ≠ some ch%'~' ∧ HasBit o)
    (h : o ∈ [bs%"popup", bs%"elemhide", bs%"generichide", bs%"genericblock", bs%"empty"] ∨
      bs%"csp=" <+: o ∨ ((∀ e ∈ optionTable, ¬ o <+: e.1) ∧ ¬ bs%"redirect=" <+: o))
    (url : Bytes) (ctx : Mask) (dom : Option Bytes) (bloom : Option (Bytes → Bool)) :
    (f.parseOptions text).matches url ctx dom bloom = .ok false := by
  apply C14_unsupported_never_matches
  obtain ⟨m, hm, h'⟩ := unsupported_bit o h
  exact ⟨m, hm, ((C41_option_list f text ht m).1).2 ⟨o, ho, hplain.1, hplain.2, h'⟩⟩

example : bs%"ghost" ∈ splitOn ch%',' bs%"script,ghost" ∧
    (∀ e ∈ optionTable, ¬ (bs%"ghost") <+: e.1) ∧ ¬ bs%"redirect=" <+: bs%"ghost" := by decide +kernel
example : (({ data := some (cstr bs%"ad") } : Filter).parseOptions bs%"popup").matches
    bs%"http://a.com/ad" FOOther none none = .ok false := by decide +kernel

end AdBlock
