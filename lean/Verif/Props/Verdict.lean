import Verif.Lemmas.Load
import Verif.Lemmas.Mapped
import Verif.Model.Toy
/-
What a client answers: C01, C23, C25, C27, C28.
-/
namespace AdBlock
open Spec

/-! ### C01 -/

/-- **C01**: a request that is not a web request is never blocked, in any state of the
client (even an unreachable one), and nothing is reported. -/
theorem C01_only_web_requests {E : Env} (c : Client E) (url : Bytes) (co : Mask) (dom : Option Bytes)
    (h : ¬ WebUrl url) : c.query url co dom = .ok ⟨false, none, none, c.stats, c.badFps⟩ :=
  query_not_web ((C02_blockable_protocols url).2.2 fun hw => h hw.1)

/-- **C01**, as seen by the caller: the answer is `false` and the client is unchanged. -/
theorem C01_matches {E : Env} (c : Client E) (url : Bytes) (co : Mask) (dom : Option Bytes)
    (h : ¬ WebUrl url) : c.matches url co dom = .ok (false, c) := by
  unfold Client.matches
  rw [C01_only_web_requests c url co dom h]
  rfl

/-- a URL that is not a web request -/
example : ¬ WebUrl bs%"data:text/html,ads" := by
  intro h
  have := (C02_blockable_protocols bs%"data:text/html,ads").1.2 ⟨h, by decide⟩
  exact absurd this (by decide +kernel)

/-! ### C23 -/

section
variable {E : Env} {c : Client E} {fs : List Filter} {url : Bytes} {co : Mask} {dom : Option Bytes}

/-- **C23**, with the conditions the code imposes in full view: for every client reached by
any history of operations, a web request is blocked exactly if one of the blocking rules
`Considered` acts and none of the exceptions `Considered` does.  Of the implementation of
the indexes (bloom filters, hash functions, hash sets, lists) nothing is left but the list
`bad` of fingerprints that are not used. -/
theorem C23_exact (hist : History E c fs) (hw : WebUrl url) (hl : 5 < url.length) (h0 : 0 ∉ url) (hroll : E.fp.rolls url)
    (hne : dom = none → ∀ s, NoEmptyExclusion E.bad s fs) {o : Outcome E} (h : c.query url co dom = .ok o) :
    o.block = true ↔ SomeActs E.bad c.tags false fs url (resolveContext url co dom) dom ∧
      ¬ SomeActs E.bad c.tags true fs url (resolveContext url co dom) dom := by
  have hold := history_holds hist
  rcases hold.ready with hr | ⟨rfl, hb, hh, hd⟩
  · have hq := query_ok hr h0 (fun id f hf => hold.index.parsed f (hold.mem.1 hf).1)
      ((C02_blockable_protocols url).1.2 ⟨hw, hl⟩) rfl h
    have some : ∀ {s f}, c.Meets s url dom f → Acts c.tags url (resolveContext url co dom) dom f →
        SomeActs E.bad c.tags s fs url (resolveContext url co dom) dom := by
      intro s f hm ha
      obtain ⟨g, hg, _, hk, hc, ha⟩ := decided_considered hold hr hm ha
      exact ⟨g, hg, hk, hc, ha⟩
    have none' : ∀ {s}, c.Undecided s url (resolveContext url co dom) dom →
        ¬ SomeActs E.bad c.tags s fs url (resolveContext url co dom) dom :=
      fun hn => undecided_considered hold hr h0 hroll (fun hd => hne hd _) hn
    cases hq with
    | free h1 h2 _ _ => simp [h2, none' h1]
    | excepted f e h1 h2 h3 h4 h5 _ _ => simp [h5, some h3 h4]
    | blocked f h1 h2 h3 h4 _ _ => simp [h4, some h1 h2, none' h3]
  · have hempty : ∀ id, c.lists id = [] := by
      intro id
      apply List.eq_nil_iff_forall_not_mem.2
      intro f hf
      have := (hold.mem.1 hf).1
      simp at this
    obtain ⟨o', h1, h2, _⟩ := query_empty hempty hh url co dom
    rw [h] at h1
    cases h1
    simp [h2, SomeActs]

/-- a rule that excludes the context domain does not act -/
theorem excluded_not_acts {f : Filter} {dl : Bytes} {tags : List Bytes} {ctx : Mask} {cd x : Bytes}
    (hd : f.domainList = some dl) (hp : positive dl = []) (hx : x ∈ negative dl) (hn : NameOf cd x) (hdot : ch%'.' ∈ x) :
    ¬ Acts tags url ctx (some cd) f := by
  intro ha
  have hcd : f.contextDomainMatchesFilter cd = true := by
    apply Decidable.byContradiction
    intro hc
    have ha1 := ha.1
    rw [(C11_domain_list_effect f cd url ctx none).2 (by simp [hd]) (by simpa using hc)] at ha1
    cases ha1
  have spec := contextDomainLoop_spec f [] cd (by simp)
  simp only [List.nil_append] at spec
  have e1 := domains_eq hd
  have e2 := antiDomains_eq hd
  rw [e1, e2] at spec
  have hnz : (f.getDomainCount false == 0 && f.getDomainCount true == 0) = false := by
    have : (negative dl).length ≠ 0 := by simpa using List.ne_nil_of_mem hx
    simp [Filter.getDomainCount, e2, this, List.ne_nil_of_mem hx]
  simp only [Filter.contextDomainMatchesFilter, hnz, Bool.false_eq_true, ↓reduceIte] at hcd
  cases hl : f.contextDomainLoop cd cd with
  | none =>
    rw [hl] at spec
    exact (spec x ⟨hn.1, hdot⟩).2 hx
  | some b =>
    rw [hl] at spec hcd
    obtain ⟨y, _, _, h3, _⟩ := spec
    simp only at hcd
    rw [hp] at h3
    exact absurd (h3.1 hcd) (by simp)

/-- The domain indexes are transparent on lists with regular domains. -/
theorem regular_domains_considered {bad : List Bytes} (hreg : RegularDomains bad fs dom) {tags : List Bytes}
    {ctx : Mask} {s : Bool} {f : Filter} (hf : f ∈ fs) (ha : Acts tags url ctx dom f) (hl : Listed s fs url f) :
    Considered bad s fs url dom f := by
  refine ⟨hl, fun hu hp hd => hreg.context hd s f hf hu hp, fun hu hn d hd g hg hsup hug hng dl hdl x hx hname => ?_⟩
  subst hd
  obtain ⟨h1, dl', h2, h3⟩ := hreg.exclusions d rfl s f hf g hg hu hn hsup hug hng dl hdl x hx hname
  obtain ⟨dl'', h4, h5⟩ := hn
  rw [h2] at h4
  cases h4
  exact excluded_not_acts h2 h5 h3 hname h1 ha

/-- On regular lists every rule that acts is taken into account. -/
theorem regular_considered (hparsed : ∀ f ∈ fs, Parsed f) {bad : List Bytes} (hreg : Regular bad fs url dom) {tags : List Bytes}
    {ctx : Mask} {s : Bool} {f : Filter} (hf : f ∈ fs) (ha : Acts tags url ctx dom f) : Considered bad s fs url dom f := by
  refine regular_domains_considered hreg.toRegularDomains hf ha fun hh => ?_
  obtain ⟨h1, ⟨h, h2, h3⟩, h4, h5⟩ := hreg.hosts s f hf hh
  refine ⟨h1, ?_, ?_⟩
  · rw [h2]
    exact C10_stays_on_host f url ctx dom none h h2 ((hparsed f hf).hostOnly hh.2.1) h4 h5 ha.1
  · rw [h2]
    exact h3

theorem regular_someActs (hparsed : ∀ f ∈ fs, Parsed f) {bad : List Bytes} (hreg : Regular bad fs url dom) (tags : List Bytes)
    (ctx : Mask) (s : Bool) : SomeActs bad tags s fs url ctx dom ↔ AnyActs tags s fs url ctx dom := by
  constructor
  · rintro ⟨f, hf, hk, _, ha⟩
    exact ⟨f, hf, hk, ha⟩
  · rintro ⟨f, hf, hk, ha⟩
    exact ⟨f, hf, hk, regular_considered hparsed hreg hf ha, ha⟩

/-- **C23**: on regular lists, a web request is blocked exactly if some blocking rule read
acts on it (matches, with its tag enabled) and no exception read does. -/
theorem C23_reference (hist : History E c fs) (hw : WebUrl url) (hl : 5 < url.length) (h0 : 0 ∉ url) (hroll : E.fp.rolls url)
    (hreg : Regular E.bad fs url dom) {o : Outcome E} (h : c.query url co dom = .ok o) :
    o.block = true ↔ (∃ f ∈ fs, Blocking f ∧ Acts c.tags url (resolveContext url co dom) dom f) ∧
      ¬ ∃ f ∈ fs, IsException f ∧ Acts c.tags url (resolveContext url co dom) dom f := by
  have hparsed := (history_holds hist).index.parsed
  rw [C23_exact hist hw hl h0 hroll hreg.empty h, regular_someActs hparsed hreg, regular_someActs hparsed hreg]
  rfl

/-- **C23**: and on lists of safe rules the query always succeeds. -/
theorem C23_defined (hist : History E c fs) (hs : ∀ f ∈ fs, SafeRule f) (url : Bytes) (h0 : 0 ∉ url) (co : Mask) (dom : Option Bytes) :
    ∃ o, c.query url co dom = .ok o :=
  query_safe (history_holds hist) hs h0 co dom

/-- **C23**: a "web request" of at most five bytes (`ws://`) is never blocked. -/
theorem C23_short_urls (c : Client E) (url : Bytes) (co : Mask) (dom : Option Bytes) (h : url.length ≤ 5) :
    c.query url co dom = .ok ⟨false, none, none, c.stats, c.badFps⟩ :=
  query_not_web ((C02_blockable_protocols url).2.2 fun hw => by have := hw.2; omega)

/-! ### C25 -/

/-- What the caller learns from a query of a client with indexes. -/
theorem query_report (hist : History E c fs) (h0 : 0 ∉ url) {o : Outcome E} (h : c.query url co dom = .ok o) :
    (∀ f, o.filter = some f → ∃ g ∈ fs, CopyOf f g ∧ Blocking g ∧ Acts c.tags url (resolveContext url co dom) dom f ∧
      Acts c.tags url (resolveContext url co dom) dom g) ∧
    (∀ e, o.exception = some e → ∃ g ∈ fs, CopyOf e g ∧ IsException g ∧ Acts c.tags url (resolveContext url co dom) dom e ∧
      Acts c.tags url (resolveContext url co dom) dom g) ∧
    (o.block = true → o.filter ≠ none ∧ o.exception = none) ∧
    (o.block = false → o.filter ≠ none → o.exception ≠ none) ∧
    (o.exception ≠ none → o.filter ≠ none) := by
  have hold := history_holds hist
  obtain ⟨b, hb⟩ := C03_protocol_check_in_bounds url url.length
  cases b with
  | false =>
    rw [query_not_web hb] at h
    cases h
    simp
  | true =>
    rcases hold.ready with hr | ⟨rfl, _, hh, hd⟩
    · have hq := query_ok hr h0 (fun id f hf => hold.index.parsed f (hold.mem.1 hf).1) hb rfl h
      have some : ∀ {s f}, c.Meets s url dom f → Acts c.tags url (resolveContext url co dom) dom f →
          ∃ g ∈ fs, CopyOf f g ∧ Kind s g ∧ Acts c.tags url (resolveContext url co dom) dom f ∧
          Acts c.tags url (resolveContext url co dom) dom g := by
        intro s f hm ha
        obtain ⟨g, hg, h1, hk, _, h2⟩ := decided_considered hold hr hm ha
        exact ⟨g, hg, h1, hk, ha, h2⟩
      cases hq with
      | free h1 h2 h3 h4 => simp [h2, h3, h4]
      | excepted f e h1 h2 h3 h4 h5 h6 h7 =>
        rw [h5, h6, h7]
        refine ⟨fun x hx => ?_, fun x hx => ?_, by simp, by simp, by simp⟩
        · cases hx; exact some h1 h2
        · cases hx; exact some h3 h4
      | blocked f h1 h2 h3 h4 h5 h6 =>
        rw [h4, h5, h6]
        refine ⟨fun x hx => ?_, by simp, by simp, by simp, by simp⟩
        cases hx; exact some h1 h2
    · have hempty : ∀ id, c.lists id = [] := by
        intro id
        apply List.eq_nil_iff_forall_not_mem.2
        intro f hf
        have := (hold.mem.1 hf).1
        simp at this
      obtain ⟨o', h1, h2, h3, h4, _⟩ := query_empty hempty hh url co dom
      rw [h] at h1
      cases h1
      simp [h2, h3, h4]

/-- **C25**: if an exception that is taken into account acts on a request, the request is not
blocked, however many blocking rules match it; and if one of these is taken into account, it
is reported together with an exception that matches. -/
theorem C25_exceptions_override (hist : History E c fs) (hw : WebUrl url) (hl : 5 < url.length) (h0 : 0 ∉ url)
    (hroll : E.fp.rolls url) (hne : dom = none → ∀ s, NoEmptyExclusion E.bad s fs) {o : Outcome E}
    (h : c.query url co dom = .ok o) {e : Filter} (he : e ∈ fs) (hk : IsException e)
    (hc : Considered E.bad true fs url dom e) (ha : Acts c.tags url (resolveContext url co dom) dom e) :
    o.block = false ∧ (SomeActs E.bad c.tags false fs url (resolveContext url co dom) dom →
      ∃ f e', o.filter = some f ∧ o.exception = some e' ∧
        ∃ g ∈ fs, CopyOf e' g ∧ IsException g ∧ Acts c.tags url (resolveContext url co dom) dom g) := by
  have hold := history_holds hist
  have hex : SomeActs E.bad c.tags true fs url (resolveContext url co dom) dom := ⟨e, he, hk, hc, ha⟩
  have hb : o.block = false := by
    rw [← Bool.not_eq_true, C23_exact hist hw hl h0 hroll hne h]
    exact fun hh => hh.2 hex
  refine ⟨hb, fun hsome => ?_⟩
  rcases hold.ready with hr | ⟨rfl, _⟩
  · have hq := query_ok hr h0 (fun id f hf => hold.index.parsed f (hold.mem.1 hf).1)
      ((C02_blockable_protocols url).1.2 ⟨hw, hl⟩) rfl h
    cases hq with
    | free h1 _ _ _ => exact absurd hsome (undecided_considered hold hr h0 hroll (fun hd => hne hd _) h1)
    | excepted f e' h1 h2 h3 h4 h5 h6 h7 =>
      obtain ⟨g, hg, h8, h9, _, h10⟩ := decided_considered hold hr h3 h4
      exact ⟨f, e', h6, h7, g, hg, h8, h9, h10⟩
    | blocked f _ _ _ h4 _ _ => rw [hb] at h4; cases h4
  · simp at he

/-! ### C28 -/

/-- **C28**: whenever a query reports a filter, it is (the hash set's copy of) one of the
blocking rules read, it matches the request and its tag is enabled; likewise for a reported
exception.  A request is blocked only if a blocking rule and no exception is reported. -/
theorem C28_reports (hist : History E c fs) (h0 : 0 ∉ url) {o : Outcome E} (h : c.query url co dom = .ok o) :
    (∀ f, o.filter = some f → ∃ g ∈ fs, CopyOf f g ∧ Blocking g ∧ Acts c.tags url (resolveContext url co dom) dom f ∧
      Acts c.tags url (resolveContext url co dom) dom g) ∧
    (∀ e, o.exception = some e → ∃ g ∈ fs, CopyOf e g ∧ IsException g ∧ Acts c.tags url (resolveContext url co dom) dom e ∧
      Acts c.tags url (resolveContext url co dom) dom g) ∧
    (o.block = true ↔ o.filter ≠ none ∧ o.exception = none) := by
  obtain ⟨h1, h2, h3, h4, _⟩ := query_report hist h0 h
  refine ⟨h1, h2, h3, fun hh => ?_⟩
  cases hb : o.block with
  | true => rfl
  | false => exact absurd hh.2 (h4 hb hh.1)

/-- **C28** for `findMatchingFilters` (which does not look at the protocol). -/
theorem C28_find_reports (hist : History E c fs) {r : Found} (h : c.findMatchingFilters url co dom = .ok r) :
    (∀ f, r.filter = some f → ∃ g ∈ fs, CopyOf f g ∧ Blocking g ∧ Acts c.tags url (resolveContext url co dom) dom f ∧
      Acts c.tags url (resolveContext url co dom) dom g) ∧
    (∀ e, r.exception = some e → ∃ g ∈ fs, CopyOf e g ∧ IsException g ∧ Acts c.tags url (resolveContext url co dom) dom e ∧
      Acts c.tags url (resolveContext url co dom) dom g) ∧
    (r.block = true ↔ r.filter ≠ none ∧ r.exception = none) := by
  have hold := history_holds hist
  rcases hold.ready with hr | ⟨rfl, _, hh, hd⟩
  · have hq := find_ok hr rfl h
    have some : ∀ {s f}, c.FindMeets s url f → Acts c.tags url (resolveContext url co dom) dom f →
        ∃ g ∈ fs, CopyOf f g ∧ Kind s g ∧ Acts c.tags url (resolveContext url co dom) dom f ∧
        Acts c.tags url (resolveContext url co dom) dom g := by
      intro s f hm ha
      obtain ⟨g, hg, h1, hk, _, h2⟩ := find_listed hold hm ha
      exact ⟨g, hg, h1, hk, ha, h2⟩
    cases hq with
    | free h1 => simp
    | excepted f e h1 h2 h3 h4 =>
      refine ⟨fun x hx => ?_, fun x hx => ?_, by simp⟩
      · cases hx; exact some h1 h2
      · cases hx; exact some h3 h4
    | blocked f h1 h2 h3 =>
      refine ⟨fun x hx => ?_, by simp, by simp⟩
      cases hx; exact some h1 h2
  · have hempty : ∀ id, c.lists id = [] := by
      intro id
      apply List.eq_nil_iff_forall_not_mem.2
      intro f hf
      have := (hold.mem.1 hf).1
      simp at this
    rw [find_empty hempty hh] at h
    cases h
    simp

/-! ### C27 -/

/-- An option bit that `matchesOptions` does not look at. -/
theorem matches_ignored_bit {m : Mask} (h1 : m &&& ~~~BehavioralFilterOnly = 0#32) (h2 : m &&& FOResourcesOnly = 0#32)
    (h3 : m &&& FODocument = 0#32) (h4 : m &&& FOUnsupportedSoSkipCheck = 0#32) (h5 : m &&& FOThirdParty = 0#32)
    (f : Filter) (url : Bytes) (ctx : Mask) (dom : Option Bytes) (bloom : Option (Bytes → Bool)) :
    { f with filterOption := f.filterOption ||| m }.matches url ctx dom bloom = f.matches url ctx dom bloom := by
  have e : ∀ x k : Mask, m &&& k = 0#32 → (x ||| m) &&& k = x &&& k := by
    intro x k hk
    rw [BitVec.and_comm, BitVec.and_or_distrib_left, BitVec.and_comm (y := m), hk, BitVec.or_zero, BitVec.and_comm]
  have hh : ∀ k : Mask, m &&& k = 0#32 → has (f.filterOption ||| m) k = has f.filterOption k := by
    intro k hk; unfold has; rw [e _ _ hk]
  have : { f with filterOption := f.filterOption ||| m }.matchesOptions ctx dom = f.matchesOptions ctx dom := by
    have hcd := domainCheckFails_congr (f := { f with filterOption := f.filterOption ||| m }) (g := f) rfl dom
    unfold Filter.matchesOptions Filter.hasUnsupportedOptions
    rw [e _ _ h1, e _ _ h2, hh _ h3, hh _ h4, hh _ h5, hh _ h2, hcd]
  exact matches_congr this rfl rfl rfl rfl url bloom

/-- the rule with the option `important` -/
def markImportant (f : Filter) : Filter := { f with filterOption := f.filterOption ||| FOImportant }

theorem markImportant_keeping : Keeping markImportant where
  filterType _ := rfl
  data _ := rfl
  dataLen _ := rfl
  host _ := rfl
  domainList _ := rfl
  unsupported f := by
    show has (f.filterOption ||| FOImportant) _ = has f.filterOption _
    rw [has_or_left, show has FOImportant FOUnsupportedSoSkipCheck = false by decide, Bool.or_false]

/-- **C27**, violated for every rule and request: the option `important` does not change
which requests a rule matches ... -/
theorem C27_important_ignored (f : Filter) (url : Bytes) (ctx : Mask) (dom : Option Bytes) (bloom : Option (Bytes → Bool)) :
    (markImportant f).matches url ctx dom bloom = f.matches url ctx dom bloom :=
  matches_ignored_bit (by decide) (by decide) (by decide) (by decide) (by decide) f url ctx dom bloom

/-- ... nor any verdict: two clients whose rules differ in that option answer alike. -/
theorem C27_important_ignored_by_client {E : Env} {c d : Client E} {fs : List Filter} {url : Bytes} {co : Mask}
    {dom : Option Bytes} (φ : Filter → Filter) (hφ : ∀ f, φ f = f ∨ φ f = markImportant f)
    (hc : History E c fs) (hd : History E d (fs.map φ)) (htags : d.tags = c.tags)
    (hw : WebUrl url) (hl : 5 < url.length) (h0 : 0 ∉ url)
    (hroll : E.fp.rolls url) (hne : dom = none → ∀ s, NoEmptyExclusion E.bad s fs) {o o' : Outcome E}
    (h : c.query url co dom = .ok o) (h' : d.query url co dom = .ok o') : o'.block = o.block := by
  have k : Keeping φ := by
    constructor <;> intro f <;> rcases hφ f with e | e <;> rw [e] <;>
      first | rfl | exact markImportant_keeping.unsupported f
  have ha : ∀ f ∈ fs, Acts c.tags url (resolveContext url co dom) dom (φ f) ↔
      Acts c.tags url (resolveContext url co dom) dom f := by
    intro f _
    rcases hφ f with e | e
    · rw [e]
    · unfold Acts
      rw [e, C27_important_ignored]
      rfl
  rw [Bool.eq_iff_iff, C23_exact hd hw hl h0 hroll (fun hd s => (k.noEmptyExclusion ..).2 (hne hd s)) h',
    C23_exact hc hw hl h0 hroll hne h, htags, k.someActs ha, k.someActs ha]

/-- **C27**, violated: an important rule is overridden by every exception that acts. -/
theorem C27_never_honoured {E : Env} {c : Client E} {fs : List Filter} {url : Bytes} {co : Mask} {dom : Option Bytes}
    (hist : History E c fs) (hw : WebUrl url) (hl : 5 < url.length) (h0 : 0 ∉ url)
    (hroll : E.fp.rolls url) (hne : dom = none → ∀ s, NoEmptyExclusion E.bad s fs) {o : Outcome E}
    (h : c.query url co dom = .ok o) {f e : Filter} (_ : f ∈ fs) (_ : Blocking f)
    (_ : has f.filterOption FOImportant = true) (_ : Acts c.tags url (resolveContext url co dom) dom f)
    (he : e ∈ fs) (hk : IsException e) (hc : Considered E.bad true fs url dom e)
    (ha : Acts c.tags url (resolveContext url co dom) dom e) : o.block = false :=
  (C25_exceptions_override hist hw hl h0 hroll hne h he hk hc ha).1

end

/-! ### a concrete list

```
||ads.com^$important
@@||ads.com^
@@/ok/
/banner
```
In every environment it can be loaded, meets the conditions above, and is queried without
undefined behaviour. -/

def sampleRules : List RuleText :=
  [{ anchor := .host, text := bs%"ads.com^", options := some bs%"important" },
   { exception := true, anchor := .host, text := bs%"ads.com^" },
   { exception := true, anchor := .left, text := bs%"http://a.com/banner/ok" },
   { text := bs%"banner" }]

def sampleText : Bytes := listText (sampleRules.map RuleText.line)

example : sampleText = bs%"||ads.com^$important\n@@||ads.com^\n@@|http://a.com/banner/ok\nbanner" := by decide +kernel

theorem sample_loaded (E : Env) : ∃ c, (Client.fresh E).parse sampleText false = .ok c ∧
      History E c (sampleRules.map fun r => r.filter false) ∧ c.tags = [] ∧
      ∀ url co dom, 0 ∉ url → (∃ o, c.query url co dom = .ok o) ∧ ∃ r, c.findMatchingFilters url co dom = .ok r :=
  loaded E sampleRules (by decide) (by decide +kernel) (by decide +kernel)

theorem sample_regular (bad : List Bytes) (url : Bytes) (dom : Option Bytes) :
    Regular bad (sampleRules.map fun r => r.filter false) url dom := by
  refine regular_of_no_domains (by decide +kernel) ?_
  have : ∀ s, ∀ f ∈ sampleRules.map fun r => r.filter false, HostRule s f →
      FirstForHost s (sampleRules.map fun r => r.filter false) f ∧ f.host = some bs%"ads.com" ∧
      has f.filterType FTLeftAnchored = false ∧ has f.filterType FTRightAnchored = false := by
    unfold FirstForHost
    decide +kernel
  intro s f hf hh
  obtain ⟨h1, h2, h3⟩ := this s f hf hh
  exact ⟨h1, ⟨_, h2, .inr (by decide)⟩, h3⟩

/-- "banner" is blocked, except where the exception says otherwise -/
example (E : Env) (hroll : ∀ url, E.fp.rolls url) : ∃ c, (Client.fresh E).parse sampleText false = .ok c ∧
    (∀ o, c.query bs%"http://a.com/banner/x" FOImage none = .ok o → o.block = true) ∧
    (∀ o, c.query bs%"http://a.com/banner/ok" FOImage none = .ok o → o.block = false) := by
  obtain ⟨c, h1, h2, h3, h4⟩ := sample_loaded E
  refine ⟨c, h1, fun o ho => ?_, fun o ho => ?_⟩
  · obtain ⟨hw, hl⟩ := webUrl_of_check (url := bs%"http://a.com/banner/x") (by decide +kernel)
    rw [C23_reference h2 hw hl (by decide) (hroll _) (sample_regular ..) ho, h3]
    unfold Acts
    decide +kernel
  · obtain ⟨hw, hl⟩ := webUrl_of_check (url := bs%"http://a.com/banner/ok") (by decide +kernel)
    rw [← Bool.not_eq_true, C23_reference h2 hw hl (by decide) (hroll _) (sample_regular ..) ho, h3]
    unfold Acts
    decide +kernel

/-- the assumption about the environment can be met -/
example : ∀ url, toyEnv.fp.rolls url := fun _ => trivial

/-- **C27**, violated in every environment: the important rule `||ads.com^$important` does
not block `http://ads.com/` because of `@@||ads.com^`. -/
theorem C27_counterexample (E : Env) (hroll : ∀ url, E.fp.rolls url) : ∃ c o f, (Client.fresh E).parse sampleText false = .ok c ∧
    c.query bs%"http://ads.com/" FOImage none = .ok o ∧
    o.filter = some f ∧ has f.filterOption FOImportant = true ∧ o.block = false := by
  obtain ⟨c, h1, h2, h3, h4⟩ := sample_loaded E
  obtain ⟨o, ho⟩ := (h4 bs%"http://ads.com/" FOImage none (by decide)).1
  obtain ⟨hw, hl⟩ := webUrl_of_check (url := bs%"http://ads.com/") (by decide +kernel)
  have hparsed := (history_holds h2).index.parsed
  have hex : AnyActs c.tags true (sampleRules.map fun r => r.filter false) bs%"http://ads.com/" FOImage none := by
    rw [h3]; unfold AnyActs Acts; decide +kernel
  have hbl : AnyActs c.tags false (sampleRules.map fun r => r.filter false) bs%"http://ads.com/" FOImage none := by
    rw [h3]; unfold AnyActs Acts; decide +kernel
  obtain ⟨e, he, hk, hc, ha⟩ := (regular_someActs hparsed (sample_regular E.bad _ none) ..).2 hex
  have := C25_exceptions_override h2 hw hl (by decide) (hroll _) (sample_regular E.bad [] none).empty ho he hk hc ha
  obtain ⟨f, e', hf, _, _⟩ := this.2 ((regular_someActs hparsed (sample_regular E.bad _ none) ..).2 hbl)
  refine ⟨c, o, f, h1, ho, hf, ?_, this.1⟩
  obtain ⟨g, hg, hcopy, hkg, _, hag⟩ := (C28_reports h2 (by decide) ho).1 f hf
  have himp : has g.filterOption FOImportant = true := by
    have all : ∀ g ∈ sampleRules.map fun r => r.filter false, Blocking g → Acts [] bs%"http://ads.com/" FOImage none g →
        has g.filterOption FOImportant = true := by
      unfold Acts; decide +kernel
    rw [h3] at hag
    exact all g hg hkg hag
  rcases hcopy with rfl | ⟨_, _, rfl⟩
  · exact himp
  · exact himp

end AdBlock
