import Verif.Props.Exact
import Verif.SpecNode
import Verif.Props.Wrap
import Verif.Props.EndToEnd
import Verif.Props.TypeOptions
import Verif.Props.Reread
/-
The constants exported to Node (C70) and the numbers of rules it is told (C71).
-/
namespace AdBlock
open Spec

/-! ### C70 -/

theorem filterOptionsGet_mem {key : Bytes} {m : Mask} : filterOptionsGet key = some m ↔ (key, m) ∈ filterOptionsObject := by
  have mem : ∀ l : List (Bytes × Mask), l.lookup key = some m → (key, m) ∈ l := by
    intro l
    induction l with
    | nil => intro h; cases h
    | cons e l ih =>
      intro h
      obtain ⟨k, v⟩ := e
      rw [List.lookup_cons] at h
      split at h
      · rename_i hk
        cases h
        rw [beq_iff_eq] at hk
        subst hk
        simp
      · exact List.mem_cons_of_mem _ (ih h)
  refine ⟨mem _, fun h => ?_⟩
  have key' : ∀ e ∈ filterOptionsObject, filterOptionsGet e.1 = some e.2 := by decide +kernel
  exact key' _ h

/-- **C70**: every resource type which can be written in a rule has one constant, and no other
constant has a bit in common with it. -/
theorem C70_types : ∀ t ∈ typeTable, ∃ key, JsNameOf key t.1 ∧ filterOptionsGet key = some t.2 ∧
    ∀ key' m, filterOptionsGet key' = some m → has m t.2 = true → key' = key := by
  have key : ∀ t ∈ typeTable, ∃ e ∈ filterOptionsObject, JsNameOf e.1 t.1 ∧ e.2 = t.2 ∧
      ∀ e' ∈ filterOptionsObject, has e'.2 t.2 = true → e'.1 = e.1 := by
    decide +kernel
  intro t ht
  obtain ⟨e, he, h1, h2, h3⟩ := key t ht
  exact ⟨e.1, h1, filterOptionsGet_mem.2 (h2 ▸ he), fun k m h hm => h3 _ (filterOptionsGet_mem.1 h) hm⟩

/-- **C70**: a name with the letters of an option of rules stands for this option. -/
theorem C70_names {key name : Bytes} {m m' : Mask} (hk : filterOptionsGet key = some m) (hn : (name, m') ∈ optionTable)
    (h : JsNameOf key name) : m = m' := by
  have key' : ∀ e ∈ filterOptionsObject, ∀ e' ∈ optionTable, JsNameOf e.1 e'.1 → e.2 = e'.2 := by decide +kernel
  exact key' _ (filterOptionsGet_mem.1 hk) _ hn h

theorem nodeMatches_of_query {E : Env} {c : Client E} {url page : Bytes} {option : Mask} {o : Outcome E}
    (h : c.query url option (some page) = .ok o) :
    c.nodeMatches url option (some page) = .ok (o.block, { c with stats := o.stats, badFps := o.badFps }) := by
  unfold Client.nodeMatches Client.matches
  rw [show pageArgument (some page) = page from rfl, h]
  rfl

/-- **C70**, with the restrictions of C59 on the rules: a request which is announced from JavaScript with the
constant for its type, by whatever name, is blocked exactly if a rule applies to requests of this type
and no exception does, where the rules say which types they are for in their text. -/
theorem C70_verdict_partial (E : Env) (rs : List RuleText) (hs : SoundList E.bad rs) (input : Bytes) (h0 : 0 ∉ input)
    (hl : ListOf (Spec.lines input) rs) (preserve : Bool) :
    ∃ c, (Client.fresh E).parse input preserve = .ok c ∧
      ∀ (q : Request) (t : Bytes × Mask) (page key : Bytes) (m : Mask), q.Web → Clear E.bad rs q → q.type = some t → q.domain = some page → E.fp.rolls q.url →
        filterOptionsGet key = some m → JsNameOf key t.1 →
        ∃ b c', c.nodeMatches q.url m (some page) = .ok (b, c') ∧
          (b = true ↔ (∃ r ∈ rs, r.exception = false ∧ r.AppliesTo [] q) ∧ ¬ ∃ r ∈ rs, r.exception = true ∧ r.AppliesTo [] q) := by
  obtain ⟨c, h1, h2⟩ := C59_text_to_verdict_partial E rs hs input h0 hl preserve
  refine ⟨c, h1, fun q t page key m hq hclear ht hp hroll hk hn => ?_⟩
  obtain ⟨o, ho, hb⟩ := h2 [] q hq hclear hroll
  have hm : m = t.2 := by
    have key' : ∀ e ∈ filterOptionsObject, ∀ t ∈ typeTable, JsNameOf e.1 t.1 → e.2 = t.2 := by decide +kernel
    exact key' _ (filterOptionsGet_mem.1 hk) _ (hq.type t ht) hn
  have hc : q.context = m := by rw [hm]; unfold Request.context; rw [ht]
  rw [hc, hp] at ho
  exact ⟨_, _, nodeMatches_of_query ho, hb⟩

/-- **C70**, exactly, for all lists that can be loaded: a request which is announced from JavaScript with the constant for its type, by
whatever name, is blocked exactly if a rule that counts applies to requests of this type and no exception that counts does. -/
theorem C70_verdict_exact (E : Env) (rs : List RuleText) (hs : SoundList E.bad rs) (input : Bytes) (h0 : 0 ∉ input)
    (hl : ListOf (Spec.lines input) rs) (preserve : Bool) :
    ∃ c, (Client.fresh E).parse input preserve = .ok c ∧
      ∀ (q : Request) (t : Bytes × Mask) (page key : Bytes) (m : Mask), q.Web → Spec.Comparable rs q → q.type = some t → q.domain = some page →
        E.fp.rolls q.url → filterOptionsGet key = some m → JsNameOf key t.1 →
        ∃ b c', c.nodeMatches q.url m (some page) = .ok (b, c') ∧
          (b = true ↔ (∃ r ∈ rs, r.exception = false ∧ Counted E.bad rs q r ∧ r.AppliesTo [] q) ∧
            ¬ ∃ r ∈ rs, r.exception = true ∧ Counted E.bad rs q r ∧ r.AppliesTo [] q) := by
  obtain ⟨c, h1, h2⟩ := C59_text_exact E rs hs input h0 hl preserve
  refine ⟨c, h1, fun q t page key m hq hsafe ht hp hroll hk hn => ?_⟩
  obtain ⟨o, ho, hb⟩ := h2 [] q hq hsafe (fun h => by rw [hp] at h; cases h) hroll
  have hm : m = t.2 := by
    have key' : ∀ e ∈ filterOptionsObject, ∀ t ∈ typeTable, JsNameOf e.1 t.1 → e.2 = t.2 := by decide +kernel
    exact key' _ (filterOptionsGet_mem.1 hk) _ (hq.type t ht) hn
  have hc : q.context = m := by rw [hm]; unfold Request.context; rw [ht]
  rw [hc, hp] at ho
  exact ⟨_, _, nodeMatches_of_query ho, hb⟩

/-- **C70** for `-O`: every name in `FilterOptions` means its constant, and without `-O` no type is
announced. -/
theorem C70_command_line_partial {name : Bytes} {m : Mask} (h : filterOptionsGet name = some m) :
    int32Argument (checkFilterOption (some name)) = m ∧ int32Argument (checkFilterOption none) = 0 := by
  refine ⟨?_, by decide +kernel⟩
  show int32Argument (filterOptionsGet name) = m
  rw [h]
  rfl

/-- **C70** fails for `-O` with other names: they are not refused, but mean that the type is not known. -/
theorem C70_unknown_name_counterexample {name : Bytes} (h : ∀ e ∈ filterOptionsObject, e.1 ≠ name) :
    int32Argument (checkFilterOption (some name)) = 0 := by
  show int32Argument (filterOptionsGet name) = 0
  cases hm : filterOptionsGet name with
  | none => rfl
  | some m => exact absurd rfl (h _ (filterOptionsGet_mem.1 hm))

/-- These are not only misspelt names, but also the names by which rules call two of the types. -/
theorem C70_rule_names_counterexample :
    (∀ t ∈ typeTable, int32Argument (checkFilterOption (some t.1)) = t.2 ∨ t.1 = bs%"xmlhttprequest" ∨ t.1 = bs%"object-subrequest") ∧
    int32Argument (checkFilterOption (some bs%"xmlhttprequest")) = 0 ∧
    int32Argument (checkFilterOption (some bs%"object-subrequest")) = 0 := by decide +kernel

/-- So the tool answers that a request is not blocked by `advert$xmlhttprequest`, if it is asked with
`-O xmlhttprequest`, while the client blocks such requests. -/
theorem C70_tool_counterexample (E : Env) (hroll : ∀ url, E.fp.rolls url) :
    ∃ c, (Client.fresh E).parse bs%"advert$xmlhttprequest" false = .ok c ∧
      (∃ c', c.nodeMatches bs%"http://a.com/advert" (int32Argument (filterOptionsGet bs%"xmlHttpRequest")) (some bs%"b.com") = .ok (true, c')) ∧
      ∃ c', c.nodeMatches bs%"http://a.com/advert" (int32Argument (checkFilterOption (some bs%"xmlhttprequest"))) (some bs%"b.com") = .ok (false, c') := by
  obtain ⟨c, h1, o, h2, h3⟩ := single_rule E { text := bs%"advert", options := some bs%"xmlhttprequest" } (by decide +kernel) (by decide +kernel) rfl
    (by decide +kernel) (by decide +kernel) (by decide +kernel) bs%"http://a.com/advert" (by decide +kernel) (by decide) (hroll _) FOXmlHttpRequest (some bs%"b.com")
  obtain ⟨c', h1', o', h2', h3'⟩ := single_rule E { text := bs%"advert", options := some bs%"xmlhttprequest" } (by decide +kernel) (by decide +kernel) rfl
    (by decide +kernel) (by decide +kernel) (by decide +kernel) bs%"http://a.com/advert" (by decide +kernel) (by decide) (hroll _) 0 (some bs%"b.com")
  rw [h1] at h1'
  cases h1'
  refine ⟨c, h1, ?_, ?_⟩
  · rw [show int32Argument (filterOptionsGet bs%"xmlHttpRequest") = FOXmlHttpRequest by decide +kernel]
    have : o.block = true := h3.2 (by decide +kernel)
    rw [nodeMatches_of_query h2, this]
    exact ⟨_, rfl⟩
  · rw [show int32Argument (checkFilterOption (some bs%"xmlhttprequest")) = 0 by decide +kernel]
    have : o'.block = false := by
      rw [← Bool.not_eq_true, h3']
      decide +kernel
    rw [nodeMatches_of_query h2', this]
    exact ⟨_, rfl⟩

/-- the hypotheses of `C70_verdict_partial` are met, also for a name with capitals -/
example (E : Env) (hbad : E.bad = [bs%"tracke"]) (hroll : ∀ url, E.fp.rolls url) : ∃ c c', (Client.fresh E).parse exText true = .ok c ∧
    c.nodeMatches exOk.url FOScript (some bs%"news.com") = .ok (false, c') := by
  obtain ⟨c, h1, h2⟩ := C70_verdict_partial E exRules exSound exText (by decide +kernel) exList true
  obtain ⟨b, c', h3, h4⟩ := h2 exOk (bs%"script", FOScript) bs%"news.com" bs%"script" FOScript exWeb.2 (hbad ▸ exClear _) rfl rfl (hroll _) (by decide +kernel) (by decide +kernel)
  have hx : ∃ r ∈ exRules, r.exception = true ∧ r.AppliesTo [] exOk := by
    refine ⟨exRules[3], by simp [exRules], rfl, ?_⟩
    have hm : exRules[3] ∈ exRules := by simp [exRules]
    exact (acts_iff ((exSound (bad := [])).wellFormed _ hm) true exWeb.2 ((exClear _).inBounds _ hm) _).1
      ⟨by decide +kernel, .inl (by decide +kernel)⟩
  have : b = false := by
    rw [← Bool.not_eq_true, h4]
    exact fun h => h.2 hx
  exact ⟨c, c', h1, this ▸ h3⟩

example : JsNameOf bs%"xmlHttpRequest" bs%"xmlhttprequest" ∧ filterOptionsGet bs%"xmlHttpRequest" = some FOXmlHttpRequest ∧
    JsNameOf bs%"objectSubrequest" bs%"object-subrequest" ∧ ¬ JsNameOf bs%"objectSubrequest" bs%"object" ∧
    filterOptionsGet bs%"objectsubrequest" = none := by decide +kernel

/-! ### C71 -/

theorem howMany_eq {A : Type} (P : A → Prop) (p : A → Bool) (l : List A) (h : ∀ a ∈ l, (p a = true ↔ P a)) :
    howMany P l = (l.filter p).length := by
  unfold howMany
  rw [← List.countP_eq_length_filter]
  apply List.countP_congr
  intro a ha
  rw [h a ha]
  simp

/-- the counters of host rules -/
theorem history_hostCounters {E : Env} {c : Client E} {fs : List Filter} (h : History E c fs) :
    c.numHostAnchoredFilters = (fs.filter fun f => classify E.bad f = .ok .hostAnchored).length ∧
    c.numHostAnchoredExceptionFilters = (fs.filter fun f => classify E.bad f = .ok .hostAnchoredException).length := by
  induction h with
  | new => exact ⟨rfl, rfl⟩
  | @parse c c' fs gs input pr _ h0 hpar hr ih =>
    obtain ⟨gs', e1, _, _, e4, e5⟩ := C20_arrays_filled hpar
    cases reads_unique e1 hr
    rw [e4, e5, ih.1, ih.2]
    simp
  | clear => exact ⟨rfl, rfl⟩
  | query h hq ih =>
    unfold Client.matches at hq
    obtain ⟨o, ho, hq⟩ := Res.bind_eq_ok.1 hq
    cases hq
    exact ih
  | addTag t h ih =>
    unfold Client.addTag
    split
    · exact ih
    · exact ih
  | removeTag t h ih => exact ih
  | enableBadFingerprintDetection h ih =>
    unfold Client.enableBadFingerprintDetection
    split
    · exact ih
    · exact ih

theorem classify_host {bad : List Bytes} {f : Filter} (hp : Parsed f) (s : Bool) :
    classify bad f = .ok (hostClass s) ↔ UsableHostRule s f := by
  constructor
  · intro h
    have := classify_spec hp h
    generalize hcl : hostClass s = cl at this
    cases this with
    | host s' h1 h2 h3 =>
      have : s = s' := by cases s <;> cases s' <;> first | rfl | cases hcl
      subst this
      exact ⟨h1, h2, h3⟩
    | unsupported => cases s <;> cases hcl
    | idle => cases s <;> cases hcl
    | cosmetic => cases s <;> cases hcl
    | html => cases s <;> cases hcl
    | fp s' => cases s <;> cases hcl
    | dom s' => cases s <;> cases hcl
    | anti s' => cases s <;> cases hcl
    | plain s' => cases s <;> cases hcl
  · rintro ⟨h1, h2, h3⟩
    rw [classify_kind bad h1 h2, if_pos h3]

/-- **C71**: each number reported is the number of rules of this kind which were loaded since the client was
last cleared: under the names of `getFilters`, or rules consisting of a host.  (A host rule counts
even if another one for the same host takes precedence.) -/
theorem C71_numbers {E : Env} {c : Client E} {fs : List Filter} (h : History E c fs) :
    c.getParsingStats.numFilters = howMany (Under E.bad bs%"filters") fs ∧
    c.getParsingStats.numCosmeticFilters = howMany (Under E.bad bs%"cosmeticFilters") fs ∧
    c.getParsingStats.numExceptionFilters = howMany (Under E.bad bs%"exceptionFilters") fs ∧
    c.getParsingStats.numNoFingerprintFilters = howMany (Under E.bad bs%"noFingerprintFilters") fs ∧
    c.getParsingStats.numNoFingerprintDomainOnlyFilters = howMany (Under E.bad bs%"noFingerprintDomainOnlyFilters") fs ∧
    c.getParsingStats.numNoFingerprintAntiDomainOnlyFilters = howMany (Under E.bad bs%"noFingerprintAntiDomainOnlyFilters") fs ∧
    c.getParsingStats.numNoFingerprintExceptionFilters = howMany (Under E.bad bs%"noFingerprintExceptionFilters") fs ∧
    c.getParsingStats.numNoFingerprintDomainOnlyExceptionFilters = howMany (Under E.bad bs%"noFingerprintDomainOnlyExceptionFilters") fs ∧
    c.getParsingStats.numNoFingerprintAntiDomainOnlyExceptionFilters = howMany (Under E.bad bs%"noFingerprintAntiDomainOnlyExceptionFilters") fs ∧
    c.getParsingStats.numHostAnchoredFilters = howMany (UsableHostRule false) fs ∧
    c.getParsingStats.numHostAnchoredExceptionFilters = howMany (UsableHostRule true) fs := by
  have hi := (history_holds h).index
  have list : ∀ id, (c.lists id).length = howMany (Under E.bad (nameOf id)) fs := by
    intro id
    rw [show c.lists id = _ from hi.arr id]
    symm
    apply howMany_eq
    intro f hf
    rw [under_iff (hi.parsed f hf) (hi.classified f hf), listOfName_nameOf, decide_eq_true_iff]
    simp
  have host := history_hostCounters h
  refine ⟨list .filters, list .cosmetic, list .exception, list .noFp, list .noFpDomain, list .noFpAntiDomain, list .noFpException,
    list .noFpDomainException, list .noFpAntiDomainException, ?_, ?_⟩
  · refine host.1.trans (howMany_eq _ _ _ fun f hf => ?_).symm
    rw [decide_eq_true_iff]
    exact classify_host (hi.parsed f hf) false
  · refine host.2.trans (howMany_eq _ _ _ fun f hf => ?_).symm
    rw [decide_eq_true_iff]
    exact classify_host (hi.parsed f hf) true

/-- the classes partition the rules -/
theorem partition_classes (bad : List Bytes) (fs : List Filter) (h : ∀ f ∈ fs, ∃ cl, classify bad f = .ok cl) :
    let n := fun cl => (fs.filter fun f => classify bad f = .ok cl).length
    n (.list .filters) + n (.list .cosmetic) + n (.list .exception) + n (.list .noFp) + n (.list .noFpDomain) + n (.list .noFpAntiDomain) +
      n (.list .noFpException) + n (.list .noFpDomainException) + n (.list .noFpAntiDomainException) + n .hostAnchored +
      n .hostAnchoredException + n (.list .html) = (fs.filter fun f => classify bad f ≠ .ok .drop).length := by
  induction fs with
  | nil => rfl
  | cons f fs ih =>
    obtain ⟨cl, hc⟩ := h f (by simp)
    have ih := ih fun g hg => h g (by simp [hg])
    simp only [List.filter_cons, hc] at ih ⊢
    cases cl with
    | drop => simpa using ih
    | hostAnchored => simp at ih ⊢; omega
    | hostAnchoredException => simp at ih ⊢; omega
    | list id => cases id <;> simp at ih ⊢ <;> omega

/-- **C71**, as far as the rules counted go: together, the numbers are the number of all rules with supported
options, except HTML rules. -/
theorem C71_total_partial {E : Env} {c : Client E} {fs : List Filter} (h : History E c fs) :
    total c.getParsingStats + howMany (Under E.bad bs%"htmlFilters") fs = howMany UsableRule fs := by
  have hi := (history_holds h).index
  have host := history_hostCounters h
  have hp := partition_classes E.bad fs hi.classified
  have hl : ∀ id, (c.lists id).length = (fs.filter fun f => classify E.bad f = .ok (.list id)).length := fun id => by
    rw [show c.lists id = _ from hi.arr id]
  have hh : howMany (Under E.bad bs%"htmlFilters") fs = (fs.filter fun f => classify E.bad f = .ok (.list .html)).length := by
    apply howMany_eq
    intro f hf
    rw [under_iff (hi.parsed f hf) (hi.classified f hf), show bs%"htmlFilters" = nameOf .html from rfl, listOfName_nameOf, decide_eq_true_iff]
    simp
  have hu : howMany UsableRule fs = (fs.filter fun f => classify E.bad f ≠ .ok .drop).length := by
    apply howMany_eq
    intro f hf
    rw [decide_eq_true_iff]
    obtain ⟨cl, hcl⟩ := hi.classified f hf
    have hspec := classify_spec (hi.parsed f hf) hcl
    constructor
    · intro hn
      refine ⟨?_, fun he => hn (classify_idle (.inl he)), fun he => hn (classify_idle (.inr he))⟩
      rw [← Bool.not_eq_true]
      intro hs
      apply hn
      unfold classify
      rw [if_pos hs]
      rfl
    · rintro ⟨h1, h2, h3⟩ hd
      rw [hd] at hcl
      cases hcl
      generalize hcl : Class.drop = cl at hspec
      cases hspec with
      | unsupported h => rw [h1] at h; cases h
      | idle h => exact h.elim h2 h3
      | cosmetic => cases hcl
      | html => cases hcl
      | host s => cases s <;> cases hcl
      | fp => cases hcl
      | dom => cases hcl
      | anti => cases hcl
      | plain => cases hcl
  rw [hh, hu, ← hp]
  unfold total Client.getParsingStats
  simp only [hl, host.1, host.2]

/-- **C71** fails for HTML rules: they are loaded, but not counted. -/
theorem C71_html_counterexample (E : Env) : ∃ c fs, (Client.fresh E).parse bs%"example.org$$script" false = .ok c ∧ History E c fs ∧
    howMany UsableRule fs = 1 ∧ total c.getParsingStats = 0 := by
  obtain ⟨c, hc⟩ := C21_memory_safe_partial (Client.fresh E) bs%"example.org$$script" false (by decide) (by
    intro l hl
    rw [show lines bs%"example.org$$script" = [bs%"example.org$$script"] by decide +kernel, List.mem_singleton] at hl
    subst hl
    exact safeLine_ok (by decide +kernel))
  obtain ⟨fs, hr, -⟩ := C20_arrays_filled hc
  have hh : History E c ([] ++ fs) := .parse .new (by decide) hc hr
  refine ⟨c, _, hc, hh, ?_⟩
  rw [show lines bs%"example.org$$script" = [bs%"example.org$$script"] by decide +kernel] at hr
  obtain ⟨f, rfl, h1, h2⟩ : ∃ f, fs = [f] ∧ f.hasUnsupportedOptions = false ∧ f.filterType = FTHTMLFiltering := by
    cases hr with
    | @cons l ls f fs e hf hr =>
      cases hr
      refine ⟨f, rfl, ?_⟩
      have hl : parseLoop bs%"example.org$$script" 0 false bs%"example.org$$script" 0 {} =
          .ok (.fin (PLocals.mk .dataOnly { filterType := FTHTMLFiltering, domainList := some bs%"example.org" } bs%"script" 0 19)) := by
        decide +kernel
      unfold parseFilter at hf
      rw [hl, Res.bind_ok] at hf
      dsimp only at hf
      rw [finishFilter_eq _ _ _ _ (by simp)] at hf
      obtain ⟨rfl, -⟩ := finishWith_effect (by simp [PLocals.result]) hf
      exact ⟨rfl, rfl⟩
  have ht := C71_total_partial hh
  have hu : howMany UsableRule [f] = 1 := by
    rw [howMany_eq _ (fun _ => true) _ (by
      simp only [List.mem_singleton, forall_eq, true_iff]
      exact ⟨h1, by rw [h2]; decide, by rw [h2]; decide⟩)]
    rfl
  have hm : howMany (Under E.bad bs%"htmlFilters") [f] = 1 := by
    rw [howMany_eq _ (fun _ => true) _ (by
      simp only [List.mem_singleton, forall_eq, true_iff]
      exact .html h1 h2)]
    rfl
  rw [List.nil_append] at ht ⊢
  omega

theorem same_stats {E : Env} {ic ih : Bool} {c d : Client E} (h : SameClient ic ih c d) :
    d.getParsingStats = { c.getParsingStats with numCosmeticFilters := if ic then 0 else c.getParsingStats.numCosmeticFilters } := by
  have hl : ∀ id, (d.lists id).length = (kept ic ih c id).length := fun id => pointwise_length (h.lists id)
  unfold Client.getParsingStats
  simp only [hl, h.numHostAnchoredFilters, h.numHostAnchoredExceptionFilters]
  cases ic <;> cases ih <;> rfl

/-- **C71**: a client which has loaded the data written by another one
reports the same numbers, except that rules which hide elements are not counted if they were left out (from Node,
they always are). -/
theorem C71_reloaded {E : Env} {c : Client E} {fs : List Filter} (hist : History E c fs) {ic ih : Bool}
    (hn : c.numHostAnchoredFilters < 2 ^ 31 ∧ c.numHostAnchoredExceptionFilters < 2 ^ 31) :
    ∃ s, c.serialize ic ih = .ok s ∧ (s.totalSize < 2 ^ 31 → ∀ (d : Client E) (q : Bytes),
      ∃ d', d.deserialize (s.buffer ++ q) = .ok (some d') ∧
        d'.getParsingStats = { c.getParsingStats with
          numCosmeticFilters := if ic then 0 else howMany (Under E.bad bs%"cosmeticFilters") fs }) := by
  refine ⟨_, serialize_eq (history_written hist) ic ih, fun hsize d q => ?_⟩
  obtain ⟨d', h1, h2, -⟩ := history_reread hist hn hsize d q
  refine ⟨d', h1, ?_⟩
  rw [same_stats h2, ← (C71_numbers hist).2.1]
  simp [Client.getParsingStats, rereadClient]

/-- a list with a rule of most of the kinds, a comment and a rule with an unknown option -/
private def countedList : Bytes := bs%"! comment\nadbanner\n/adverts.\n@@goodies\n|$script\n|$domain=a.com\n@@|$domain=~a.com\n||ads.com^\n@@||good.com^\n##.ad\nexample.org$$script\nunknown$foo"

example : (Client.getParsingStats <$> (Client.fresh toyEnv).parse countedList false) = .ok
    { numFilters := 2, numCosmeticFilters := 1, numExceptionFilters := 1, numNoFingerprintFilters := 1,
      numNoFingerprintDomainOnlyFilters := 1, numNoFingerprintAntiDomainOnlyFilters := 0, numNoFingerprintExceptionFilters := 0,
      numNoFingerprintDomainOnlyExceptionFilters := 0, numNoFingerprintAntiDomainOnlyExceptionFilters := 1,
      numHostAnchoredFilters := 1, numHostAnchoredExceptionFilters := 1 } := by decide +kernel

end AdBlock
