import Verif.Props.Verdict
import Verif.Lemmas.Subset
/-
Comparing queries of different kinds, clients and lists: C24, C26, C30, C44, C45, C46.
-/
namespace AdBlock
open Spec

section
variable {E : Env} {c : Client E} {fs : List Filter} {url : Bytes} {co : Mask} {dom : Option Bytes}

/-! ### C24 -/

/-- **C24**, the answer of `findMatchingFilters`: for every client reached by any history and
every request, it is "block" exactly if some blocking rule acts (of the host rules for a
host only the first counts) and no exception does. -/
theorem C24_find_exact (hist : History E c fs) {r : Found} (h : c.findMatchingFilters url co dom = .ok r) :
    r.block = true ↔ SomeListedActs c.tags false fs url (resolveContext url co dom) dom ∧
      ¬ SomeListedActs c.tags true fs url (resolveContext url co dom) dom := by
  have hold := history_holds hist
  rcases hold.ready with hr | ⟨rfl, hb, hh, hd⟩
  · have hq := find_ok hr rfl h
    have some : ∀ {s f}, c.FindMeets s url f → Acts c.tags url (resolveContext url co dom) dom f →
        SomeListedActs c.tags s fs url (resolveContext url co dom) dom := by
      intro s f hm ha
      obtain ⟨g, hg, _, hk, hl, ha⟩ := find_listed hold hm ha
      exact ⟨g, hg, hk, hl, ha⟩
    cases hq with
    | free h1 => simp [find_none_listed hold hr h1]
    | excepted f e h1 h2 h3 h4 => simp [some h3 h4]
    | blocked f h1 h2 h3 => simp [some h1 h2, find_none_listed hold hr h3]
  · have hempty : ∀ id, c.lists id = [] := by
      intro id
      apply List.eq_nil_iff_forall_not_mem.2
      intro f hf
      have := (hold.mem.1 hf).1
      simp at this
    rw [find_empty hempty hh] at h
    cases h
    simp [SomeListedActs]

/-- **C24**: `matches` and `findMatchingFilters` agree on every web request, for lists and
context domains on which the defects of the domain indexes do not show (they agree on the
host rules that are dropped). -/
theorem C24_agree_partial (hist : History E c fs) (hw : WebUrl url) (hl : 5 < url.length) (h0 : 0 ∉ url) (hroll : E.fp.rolls url)
    (hreg : RegularDomains E.bad fs dom) {o : Outcome E} (h : c.query url co dom = .ok o) {r : Found}
    (hr : c.findMatchingFilters url co dom = .ok r) : o.block = r.block := by
  have key : ∀ s, SomeActs E.bad c.tags s fs url (resolveContext url co dom) dom ↔
      SomeListedActs c.tags s fs url (resolveContext url co dom) dom := by
    intro s
    constructor
    · rintro ⟨f, hf, hk, hc, ha⟩
      exact ⟨f, hf, hk, hc.host, ha⟩
    · rintro ⟨f, hf, hk, hlist, ha⟩
      exact ⟨f, hf, hk, regular_domains_considered hreg hf ha hlist, ha⟩
  rw [Bool.eq_iff_iff, C23_exact hist hw hl h0 hroll hreg.empty h, C24_find_exact hist hr, key, key]

/-- **C24**, half of it without any condition: what `matches` blocks by a blocking rule,
`findMatchingFilters` also reports as matched. -/
theorem C24_find_reports_more (hist : History E c fs) (h0 : 0 ∉ url) {o : Outcome E} (h : c.query url co dom = .ok o) {r : Found}
    (hr : c.findMatchingFilters url co dom = .ok r) (hb : o.filter ≠ none) : r.filter ≠ none := by
  have hold := history_holds hist
  obtain ⟨b, hweb⟩ := C03_protocol_check_in_bounds url url.length
  cases b with
  | false => rw [query_not_web hweb] at h; cases h; exact absurd rfl hb
  | true =>
    rcases hold.ready with hready | ⟨rfl, _, hh, hd⟩
    · have hq := query_ok hready h0 (fun id f hf => hold.index.parsed f (hold.mem.1 hf).1) hweb rfl h
      have hf := find_ok hready rfl hr
      have key : ∀ f, c.Meets false url dom f → Acts c.tags url (resolveContext url co dom) dom f →
          ¬ c.FindNone false url (resolveContext url co dom) dom := by
        intro f hm ha hn
        obtain ⟨g, hg, _, hk, hc, ha⟩ := decided_considered hold hready hm ha
        exact find_none_listed hold hready hn ⟨g, hg, hk, hc.host, ha⟩
      cases hf with
      | free hn =>
        cases hq with
        | free _ _ h3 _ => exact absurd h3 hb
        | excepted f e h1 h2 _ _ _ _ _ => exact absurd hn (key f h1 h2)
        | blocked f h1 h2 _ _ _ _ => exact absurd hn (key f h1 h2)
      | excepted f e => simp
      | blocked f => simp
    · have hempty : ∀ id, c.lists id = [] := by
        intro id
        apply List.eq_nil_iff_forall_not_mem.2
        intro f hf
        have := (hold.mem.1 hf).1
        simp at this
      obtain ⟨o', h1, _, h3, _⟩ := query_empty hempty hh url co dom
      rw [h] at h1
      cases h1
      exact absurd h3 hb

/-! ### C26 -/

/-- **C26**: a blocked request stays blocked when a list without exceptions is loaded in
addition, provided none of its rules without fingerprint is only about excluded domains and
excludes the context domain of the request. -/
theorem C26_monotone_partial (hist : History E c fs) {d : Client E} {gs : List Filter} (hist' : History E d (fs ++ gs))
    (htags : d.tags = c.tags) (hw : WebUrl url) (hl : 5 < url.length) (h0 : 0 ∉ url) (hroll : E.fp.rolls url)
    (hne : dom = none → ∀ s, NoEmptyExclusion E.bad s (fs ++ gs))
    (hexc : ∀ g ∈ gs, ¬ IsException g)
    (hneg : ∀ g ∈ gs, g.hasUnsupportedOptions = false → Unindexed E.bad false g → OnlyNegative g →
      ∀ dl, g.domainList = some dl → ∀ x ∈ negative dl, ∀ y, dom = some y → ¬ NameOf y x)
    {o o' : Outcome E} (h : c.query url co dom = .ok o) (h' : d.query url co dom = .ok o') (hb : o.block = true) :
    o'.block = true := by
  have hne' : dom = none → ∀ s, NoEmptyExclusion E.bad s fs :=
    fun hd s g hg => hne hd s g (List.mem_append.2 (.inl hg))
  rw [C23_exact hist hw hl h0 hroll hne' h] at hb
  rw [C23_exact hist' hw hl h0 hroll hne h', htags]
  refine ⟨someActs_append hneg hb.1, fun hh => hb.2 ((someActs_append_other hexc).1 hh)⟩

/-- **C26** for the usual way to get there: loading another list. -/
theorem C26_parse_partial (hist : History E c fs) {d : Client E} {input : Bytes} {preserve : Bool} (hin : 0 ∉ input)
    (hparse : c.parse input preserve = .ok d) {gs : List Filter} (hgs : Reads E.bad preserve (lines input) gs)
    (hw : WebUrl url) (hl : 5 < url.length) (h0 : 0 ∉ url) (hroll : E.fp.rolls url)
    (hne : dom = none → ∀ s, NoEmptyExclusion E.bad s (fs ++ gs))
    (hexc : ∀ g ∈ gs, ¬ IsException g)
    (hneg : ∀ g ∈ gs, g.hasUnsupportedOptions = false → Unindexed E.bad false g → OnlyNegative g →
      ∀ dl, g.domainList = some dl → ∀ x ∈ negative dl, ∀ y, dom = some y → ¬ NameOf y x)
    {o o' : Outcome E} (h : c.query url co dom = .ok o) (h' : d.query url co dom = .ok o') (hb : o.block = true) :
    o'.block = true :=
  C26_monotone_partial hist (.parse hist hin hparse hgs) (parse_tags hparse) hw hl h0 hroll hne hexc hneg h h' hb

/-! ### C30 -/

/-- **C30**: a rule whose tag is not enabled influences no verdict, wherever it is in the
list, unless it is a host rule (it hides later ones for the same host) or a rule without
fingerprint that is only about excluded domains (it closes their index). -/
theorem C30_disabled_partial (hist : History E c fs) (p : Filter → Bool)
    (hp : ∀ f ∈ fs, p f = false → f.tag ≠ [] ∧ f.tag ∉ c.tags ∧ ∀ s, Idle E.bad s f)
    {d : Client E} (hist' : History E d (fs.filter p)) (htags : d.tags = c.tags)
    (hw : WebUrl url) (hl : 5 < url.length) (h0 : 0 ∉ url) (hroll : E.fp.rolls url)
    (hne : dom = none → ∀ s, NoEmptyExclusion E.bad s fs)
    {o o' : Outcome E} (h : c.query url co dom = .ok o) (h' : d.query url co dom = .ok o') : o'.block = o.block := by
  have hne' : dom = none → ∀ s, NoEmptyExclusion E.bad s (fs.filter p) :=
    fun hd s g hg => hne hd s g (List.mem_filter.1 hg).1
  have key : ∀ s, SomeActs E.bad c.tags s (fs.filter p) url (resolveContext url co dom) dom ↔
      SomeActs E.bad c.tags s fs url (resolveContext url co dom) dom := by
    intro s
    apply someActs_filter
    intro f hf hpf
    obtain ⟨h1, h2, h3⟩ := hp f hf hpf
    refine ⟨h3 s, fun ha => ?_⟩
    rcases ha.2.2 with e | e
    · exact h1 e
    · exact h2 e
  rw [Bool.eq_iff_iff, C23_exact hist' hw hl h0 hroll hne' h', C23_exact hist hw hl h0 hroll hne h, htags, key, key]

/-- **C30**: a rule whose tag is not enabled is never reported, and never blocks by itself. -/
theorem C30_never_reported (hist : History E c fs) (h0 : 0 ∉ url) {o : Outcome E} (h : c.query url co dom = .ok o) (f : Filter)
    (hf : o.filter = some f ∨ o.exception = some f) : f.tag = [] ∨ f.tag ∈ c.tags := by
  obtain ⟨h1, h2, _⟩ := C28_reports hist h0 h
  rcases hf with hf | hf
  · obtain ⟨g, _, _, _, ha, _⟩ := h1 f hf; exact ha.2
  · obtain ⟨g, _, _, _, ha, _⟩ := h2 f hf; exact ha.2

/-- the rule without its tag -/
def untag (f : Filter) : Filter := { f with tag := [] }

/-- **C30**: with their tags enabled, tagged rules act as if they had no tag. -/
theorem C30_enabled (hist : History E c fs) (φ : Filter → Filter)
    (hφ : ∀ f, φ f = f ∨ φ f = untag f) (hen : ∀ f ∈ fs, φ f ≠ f → f.tag ∈ c.tags)
    {d : Client E} (hist' : History E d (fs.map φ)) (htags : d.tags = c.tags)
    (hw : WebUrl url) (hl : 5 < url.length) (h0 : 0 ∉ url) (hroll : E.fp.rolls url)
    (hne : dom = none → ∀ s, NoEmptyExclusion E.bad s fs)
    {o o' : Outcome E} (h : c.query url co dom = .ok o) (h' : d.query url co dom = .ok o') : o'.block = o.block := by
  have k : Keeping φ := by
    constructor <;> intro f <;> rcases hφ f with e | e <;> rw [e] <;> rfl
  have ha : ∀ f ∈ fs, Acts c.tags url (resolveContext url co dom) dom (φ f) ↔
      Acts c.tags url (resolveContext url co dom) dom f := by
    intro f hf
    by_cases e : φ f = f
    · rw [e]
    · have ht := hen f hf e
      have e := (hφ f).resolve_left e
      unfold Acts
      rw [e]
      have : (untag f).matches url (resolveContext url co dom) dom none = f.matches url (resolveContext url co dom) dom none :=
        matches_congr (f := untag f) (g := f) (matchesOptions_congr (f := untag f) (g := f) rfl rfl rfl _ _) rfl rfl rfl rfl url none
      rw [this]
      simp [untag, ht]
  rw [Bool.eq_iff_iff, C23_exact hist' hw hl h0 hroll (fun hd s => (k.noEmptyExclusion ..).2 (hne hd s)) h',
    C23_exact hist hw hl h0 hroll hne h, htags, k.someActs ha, k.someActs ha]

/-! ### C44 -/

/-- rules about the contents of pages -/
def pageRule (f : Filter) : Bool := has f.filterType (FTElementHiding ||| FTElementHidingException ||| FTHTMLFiltering)

theorem pageRule_kind {f : Filter} (h : pageRule f = true) (s : Bool) : ¬ Kind s f := by
  intro hk
  unfold Kind at hk
  have e : has (f.filterType &&& FTListTypesMask) (FTElementHiding ||| FTElementHidingException ||| FTHTMLFiltering) = true := by
    rw [has_and_assoc]
    exact h
  rw [hk] at e
  cases s <;> exact absurd e (by decide)

/-- **C44**: removing all element hiding rules, their exceptions and the HTML filtering rules
from what has been loaded changes no verdict. -/
theorem C44_page_rules (hist : History E c fs) {d : Client E} (hist' : History E d (fs.filter fun f => !pageRule f))
    (htags : d.tags = c.tags) (hw : WebUrl url) (hl : 5 < url.length) (h0 : 0 ∉ url) (hroll : E.fp.rolls url)
    (hne : dom = none → ∀ s, NoEmptyExclusion E.bad s fs)
    {o o' : Outcome E} (h : c.query url co dom = .ok o) (h' : d.query url co dom = .ok o') : o'.block = o.block := by
  have hne' : dom = none → ∀ s, NoEmptyExclusion E.bad s (fs.filter fun f => !pageRule f) :=
    fun hd s g hg => hne hd s g (List.mem_filter.1 hg).1
  have key : ∀ s, SomeActs E.bad c.tags s (fs.filter fun f => !pageRule f) url (resolveContext url co dom) dom ↔
      SomeActs E.bad c.tags s fs url (resolveContext url co dom) dom := by
    intro s
    apply someActs_filter
    intro f hf hpf
    have hk := pageRule_kind (f := f) (by simpa using hpf)
    exact ⟨⟨fun hh => hk s hh.1, fun _ hu => absurd hu.1 (hk s)⟩, fun hh => hk s hh.1⟩
  rw [Bool.eq_iff_iff, C23_exact hist' hw hl h0 hroll hne' h', C23_exact hist hw hl h0 hroll hne h, htags, key, key]

/-- **C44** for `findMatchingFilters`. -/
theorem C44_page_rules_find (hist : History E c fs) {d : Client E} (hist' : History E d (fs.filter fun f => !pageRule f))
    (htags : d.tags = c.tags) {r r' : Found} (h : c.findMatchingFilters url co dom = .ok r)
    (h' : d.findMatchingFilters url co dom = .ok r') : r'.block = r.block := by
  have key : ∀ s, SomeListedActs c.tags s (fs.filter fun f => !pageRule f) url (resolveContext url co dom) dom ↔
      SomeListedActs c.tags s fs url (resolveContext url co dom) dom := by
    intro s
    have hfind := fun k => find_filter_host (fs := fs) (s := s) (fun f => !pageRule f)
      (fun f _ hp hh => pageRule_kind (f := f) (by simpa using hp) s hh.1) k
    constructor
    · rintro ⟨f, hf, hk, hlist, ha⟩
      exact ⟨f, (List.mem_filter.1 hf).1, hk, fun hh => ⟨(hfind _).symm.trans (hlist hh).1, (hlist hh).2⟩, ha⟩
    · rintro ⟨f, hf, hk, hlist, ha⟩
      refine ⟨f, List.mem_filter.2 ⟨hf, ?_⟩, hk, fun hh => ⟨(hfind _).trans (hlist hh).1, (hlist hh).2⟩, ha⟩
      cases hp : pageRule f with
      | false => rfl
      | true => exact absurd hk (pageRule_kind hp s)
  rw [Bool.eq_iff_iff, C24_find_exact hist' h', C24_find_exact hist h, htags, key, key]

/-! ### C46 -/

/-- **C46**: two clients with the same rules and tags, but different bloom filters, hash
functions and states of the indexes, give the same verdict. -/
theorem C46_index_invisible {E' : Env} (hbad : E'.bad = E.bad) (hist : History E c fs) {d : Client E'} (hist' : History E' d fs)
    (htags : d.tags = c.tags) (hw : WebUrl url) (hl : 5 < url.length) (h0 : 0 ∉ url) (hroll : E.fp.rolls url)
    (hroll' : E'.fp.rolls url) (hne : dom = none → ∀ s, NoEmptyExclusion E.bad s fs)
    {o : Outcome E} {o' : Outcome E'} (h : c.query url co dom = .ok o) (h' : d.query url co dom = .ok o') :
    o'.block = o.block := by
  rw [Bool.eq_iff_iff, C23_exact hist' hw hl h0 hroll' (by rw [hbad]; exact hne) h', C23_exact hist hw hl h0 hroll hne h, htags, hbad]

/-- **C46**, also with different lists of bad fingerprints, on regular lists. -/
theorem C46_bad_fingerprints_invisible {E' : Env} (hist : History E c fs) {d : Client E'} (hist' : History E' d fs)
    (htags : d.tags = c.tags) (hw : WebUrl url) (hl : 5 < url.length) (h0 : 0 ∉ url) (hroll : E.fp.rolls url)
    (hroll' : E'.fp.rolls url) (hreg : Regular E.bad fs url dom) (hreg' : Regular E'.bad fs url dom)
    {o : Outcome E} {o' : Outcome E'} (h : c.query url co dom = .ok o) (h' : d.query url co dom = .ok o') :
    o'.block = o.block := by
  rw [Bool.eq_iff_iff, C23_reference hist' hw hl h0 hroll' hreg' h', C23_reference hist hw hl h0 hroll hreg h, htags]

/-- **C46** for `findMatchingFilters`: it does not even depend on the bad fingerprints. -/
theorem C46_find {E' : Env} (hist : History E c fs) {d : Client E'} (hist' : History E' d fs)
    (htags : d.tags = c.tags) {r r' : Found} (h : c.findMatchingFilters url co dom = .ok r)
    (h' : d.findMatchingFilters url co dom = .ok r') : r'.block = r.block := by
  rw [Bool.eq_iff_iff, C24_find_exact hist' h', C24_find_exact hist h, htags]

/-- **C46**: the rules read from a list do not depend on the bad fingerprints, so clients that
have loaded the same lists do have the same rules. -/
theorem C46_same_rules {bad bad' : List Bytes} {preserve : Bool} {ls : List Bytes} {fs gs : List Filter}
    (h : Reads bad preserve ls fs) (h' : Reads bad' preserve ls gs) : fs = gs := by
  induction h generalizing gs with
  | nil => cases h'; rfl
  | @cons l ls f fs e hf _ ih =>
    cases h' with
    | @cons _ _ g gs e' hg hr =>
      rw [ih hr]
      congr 1
      unfold parseFilter at hf hg
      obtain ⟨x, hx, hf⟩ := Res.bind_eq_ok.1 hf
      obtain ⟨y, hy, hg⟩ := Res.bind_eq_ok.1 hg
      rw [hx] at hy
      cases hy
      cases x with
      | ret k => cases hf; cases hg; rfl
      | fin st =>
        by_cases hs : st.st = .start
        · simp only [finishFilter, hs, ↓reduceIte] at hf hg
          cases hf; cases hg; rfl
        · simp only at hf hg
          rw [finishFilter_eq _ _ _ _ hs] at hf hg
          exact (finishWith_effect (by simp [PLocals.result]) hf).1.trans (finishWith_effect (by simp [PLocals.result]) hg).1.symm

/-! ### C45 -/

/-- **C45**: if the context domain is not in the index of domains, no rule of the list that is
skipped acts on any request. -/
theorem C45_miss_is_right (hist : History E c fs) (s : Bool) (cd : Bytes)
    (hmiss : isNoFingerprintDomainHashSetMiss E (c.domSets (domSet s)) (some cd) = true) (url : Bytes) (ctx : Mask) :
    ∀ f ∈ c.lists (domList s), ¬ Acts c.tags url ctx (some cd) f := by
  intro f hf ha
  have hold := history_holds hist
  rcases hold.ready with hr | ⟨rfl, _, _, hd⟩
  · obtain ⟨hfs, hc⟩ := hold.mem.1 hf
    obtain ⟨_, _, hpos⟩ := (in_domList (hold.index.parsed f hfs) (hold.index.classified f hfs) s).1 hc
    obtain ⟨dl, hdl, x, h1, h2, h3⟩ := only_positive_acts hold hpos ha
    rw [domMiss_some hold hr] at hmiss
    refine hmiss x h1 ?_
    rw [mem_dom_entries hold (s := s) (domSet_domId hold s)]
    exact ⟨f, hfs, hc, dl, hdl, .inl ⟨h2, h3⟩⟩
  · rw [hd] at hmiss
    cases hmiss

/-- the client without its indexes of domains for rules about given domains -/
def Client.withoutDomainIndex (c : Client E) : Client E :=
  { c with domSets := fun d => if d = .domain ∨ d = .domainException then none else c.domSets d }

theorem noFpPhase_withoutDomainIndex (hist : History E c fs) (h0 : 0 ∉ url) {cd : Bytes} {ctx : Mask} (s : Bool) {r : Option Filter}
    (h : c.withoutDomainIndex.noFpPhase (domSet s) (antiSet s) (domList s) (antiList s) (plainList s) url ctx (some cd) = .ok r) :
    c.noFpPhase (domSet s) (antiSet s) (domList s) (antiList s) (plainList s) url ctx (some cd) = .ok r := by
  have hold := history_holds hist
  rw [noFpPhase_eq] at h ⊢
  have e1 : isNoFingerprintDomainHashSetMiss E (c.withoutDomainIndex.domSets (domSet s)) (some cd) = false := by
    cases s <;> rfl
  have e2 : c.withoutDomainIndex.domSets (antiSet s) = c.domSets (antiSet s) := by cases s <;> rfl
  rw [e1, e2] at h
  cases hm : isNoFingerprintDomainHashSetMiss E (c.domSets (domSet s)) (some cd) with
  | false => exact h
  | true =>
    obtain ⟨r1, hr1, h⟩ := Res.bind_eq_ok.1 h
    have : r1 = none := by
      cases r1 with
      | none => rfl
      | some f =>
        obtain ⟨h1, h2⟩ := (hasMatching_call (c := c) h0 (fun f hf => hold.index.parsed f (hold.mem.1 hf).1) hr1).1 f rfl
        exact absurd h2 (C45_miss_is_right hist s cd hm url ctx f h1)
    subst this
    exact h

/-- **C45**: for a request with a context domain, a client gives the same answer, reports the
same filters and counts the same as one that has no index of domains, and so compares the
request with all rules about given domains. -/
theorem C45_index_transparent (hist : History E c fs) (h0 : 0 ∉ url) (cd : Bytes) {o : Outcome E}
    (h : c.withoutDomainIndex.query url co (some cd) = .ok o) : c.query url co (some cd) = .ok o := by
  unfold Client.query at h ⊢
  obtain ⟨b, hb, h⟩ := Res.bind_eq_ok.1 h
  rw [hb, Res.bind_ok]
  cases b with
  | false => exact h
  | true =>
    simp only [Bool.not_true, Bool.false_eq_true, ↓reduceIte] at h ⊢
    obtain ⟨x, hx, h⟩ := Res.bind_eq_ok.1 h
    have hblock : c.blockPhase url (resolveContext url co (some cd)) (some cd) = .ok x := by
      unfold Client.blockPhase at hx ⊢
      obtain ⟨r, hr, hx⟩ := Res.bind_eq_ok.1 hx
      have := noFpPhase_withoutDomainIndex hist h0 false hr
      simp only [domSet, antiSet, domList, antiList, plainList, Bool.false_eq_true, ↓reduceIte] at this
      rw [this]
      exact hx
    rw [hblock, Res.bind_ok]
    cases x with
    | done o' => exact h
    | hit f =>
      simp only at h ⊢
      unfold Client.exceptionPhase at h ⊢
      obtain ⟨r, hr, h⟩ := Res.bind_eq_ok.1 h
      have := noFpPhase_withoutDomainIndex hist h0 true hr
      simp only [domSet, antiSet, domList, antiList, plainList, ↓reduceIte] at this
      rw [this]
      exact h

end

/-! ### the text of a tag annotation (C30) -/

/-- **C30**: appending `,tag=t` to the options of a line gives the same rule with the tag `t`. -/
theorem C30_annotation (r : RuleText) (o t : Bytes) (preserve : Bool) (ho : ∀ c ∈ o, c ≠ 0 ∧ c ≠ 13 ∧ c ≠ 10)
    (ht : ∀ c ∈ t, c ≠ 0 ∧ c ≠ 13 ∧ c ≠ 10 ∧ c ≠ ch%',') :
    { { r with options := some (o ++ bs%",tag=" ++ t) }.filter preserve with ruleDefinition := none } =
      { { r with options := some o }.filter preserve with tag := t, ruleDefinition := none } := by
  have e : ({} : Filter).parseOptions (o ++ bs%",tag=" ++ t) = { ({} : Filter).parseOptions o with tag := t } := by
    rw [parseOptions_eq _ _ ho, parseOptions_eq]
    · have : o ++ bs%",tag=" ++ t = o ++ ch%',' :: (bs%"tag=" ++ t) := by simp
      rw [this, splitOn_append, splitOn_of_not_mem (s := bs%"tag=" ++ t) (by
        intro h
        rcases List.mem_append.1 h with h | h
        · exact absurd h (by decide)
        · exact (ht _ h).2.2.2 rfl), List.foldl_append]
      simp [Filter.parseOption, strncmpEq]
    · intro c hc
      simp only [List.mem_append] at hc
      rcases hc with (hc | hc) | hc
      · exact ho c hc
      · revert hc; revert c; decide
      · have := ht c hc; exact ⟨this.1, this.2.1, this.2.2.1⟩
  unfold RuleText.filter RuleText.opts
  simp only [e]
  rfl

/-! ### counterexamples, in every environment -/

def antiRuleB : RuleText := { text := bs%"ads", options := some bs%"domain=~b.com" }
def antiRuleA : RuleText := { text := bs%"ban", options := some bs%"domain=~a.com" }

theorem antiRuleB_unindexed (bad : List Bytes) : Unindexed bad false (antiRuleB.filter false) ∧ OnlyNegative (antiRuleB.filter false) :=
  ⟨⟨by decide +kernel, by decide +kernel, no_fingerprint_of_short bad (pat := bs%"ads") (by decide +kernel) (by decide) (by decide)⟩,
    ⟨bs%"~b.com", by decide +kernel, by decide +kernel⟩⟩

theorem antiRuleA_unindexed (bad : List Bytes) : Unindexed bad false (antiRuleA.filter false) ∧ OnlyNegative (antiRuleA.filter false) :=
  ⟨⟨by decide +kernel, by decide +kernel, no_fingerprint_of_short bad (pat := bs%"ban") (by decide +kernel) (by decide) (by decide)⟩,
    ⟨bs%"~a.com", by decide +kernel, by decide +kernel⟩⟩

theorem not_nameOf_ab : ¬ NameOf bs%"a.com" bs%"b.com" := by
  rintro ⟨h | ⟨sub, h⟩, _⟩
  · exact absurd h (by decide)
  · have := congrArg List.length h
    simp at this

theorem antiRuleB_blocks {E : Env} (hroll : ∀ url, E.fp.rolls url) {c : Client E}
    (hist : History E c ([antiRuleB].map fun r => r.filter false)) (ht : c.tags = []) {o : Outcome E}
    (h : c.query bs%"http://x.com/ads" FOImage (some bs%"a.com") = .ok o) : o.block = true := by
  obtain ⟨hw, hl⟩ := webUrl_of_check (url := bs%"http://x.com/ads") (by decide +kernel)
  rw [C23_exact hist hw hl (by decide) (hroll _) (by simp) h]
  obtain ⟨hu, hn⟩ := antiRuleB_unindexed E.bad
  refine ⟨⟨antiRuleB.filter false, by simp, hu.1, ⟨fun hh => ?_, fun _ _ => by simp, fun _ _ d hd g hg _ _ _ dl hdl x hx hname => ?_⟩, ?_⟩, ?_⟩
  · exact absurd hh.2.1 (by decide +kernel)
  · cases hd
    simp only [List.map_cons, List.map_nil, List.mem_singleton] at hg
    subst hg
    have : dl = bs%"~b.com" := by
      have : (antiRuleB.filter false).domainList = some bs%"~b.com" := by decide +kernel
      rw [this] at hdl
      exact (Option.some.inj hdl).symm
    subst this
    have : x = bs%"b.com" := by
      have e : negative bs%"~b.com" = [bs%"b.com"] := by decide
      rw [e] at hx
      simpa using hx
    subst this
    exact not_nameOf_ab hname
  · rw [ht]; unfold Acts; decide +kernel
  · rintro ⟨f, hf, hk, _⟩
    revert hk
    simp only [List.map_cons, List.map_nil, List.mem_singleton] at hf
    subst hf
    decide +kernel

theorem antiRules_free {E : Env} (hroll : ∀ url, E.fp.rolls url) {c : Client E}
    (hist : History E c ([antiRuleB, antiRuleA].map fun r => r.filter false)) (ht : c.tags = []) {o : Outcome E}
    (h : c.query bs%"http://x.com/ads" FOImage (some bs%"a.com") = .ok o) : o.block = false := by
  obtain ⟨hw, hl⟩ := webUrl_of_check (url := bs%"http://x.com/ads") (by decide +kernel)
  rw [← Bool.not_eq_true, C23_exact hist hw hl (by decide) (hroll _) (by simp) h]
  rintro ⟨⟨f, hf, hk, hc, ha⟩, -⟩
  simp only [List.map_cons, List.map_nil, List.mem_cons, List.not_mem_nil, or_false] at hf
  rcases hf with rfl | rfl
  · obtain ⟨hu, hn⟩ := antiRuleB_unindexed E.bad
    obtain ⟨hu', hn'⟩ := antiRuleA_unindexed E.bad
    refine hc.negative hu hn _ rfl (antiRuleA.filter false) (by simp) (by decide +kernel) hu' hn' bs%"~a.com" (by decide +kernel)
      bs%"a.com" (by decide) ⟨.inl rfl, .inl rfl⟩
  · rw [ht] at ha
    revert ha
    unfold Acts
    decide +kernel

/-- **C24**, violated: with the rules `ads$domain=~b.com` and `ban$domain=~a.com`, an image
`http://x.com/ads` on `a.com` is not blocked by `matches`, but is by `findMatchingFilters`. -/
theorem C24_counterexample (E : Env) (hroll : ∀ url, E.fp.rolls url) : ∃ c o r,
    (Client.fresh E).parse bs%"ads$domain=~b.com\nban$domain=~a.com" false = .ok c ∧
    c.query bs%"http://x.com/ads" FOImage (some bs%"a.com") = .ok o ∧ o.block = false ∧
    c.findMatchingFilters bs%"http://x.com/ads" FOImage (some bs%"a.com") = .ok r ∧ r.block = true := by
  obtain ⟨c, h1, h2, h3, h4⟩ := loaded E [antiRuleB, antiRuleA] (by decide) (by decide +kernel) (by decide +kernel)
  obtain ⟨⟨o, ho⟩, r, hr⟩ := h4 bs%"http://x.com/ads" FOImage (some bs%"a.com") (by decide)
  refine ⟨c, o, r, h1, ho, antiRules_free hroll h2 h3 ho, hr, ?_⟩
  rw [C24_find_exact h2 hr, h3]
  obtain ⟨hu, hn⟩ := antiRuleB_unindexed E.bad
  refine ⟨⟨antiRuleB.filter false, by simp, hu.1, fun hh => ?_, ?_⟩, ?_⟩
  · exact absurd hh.2.1 (by decide +kernel)
  · unfold Acts; decide +kernel
  · rintro ⟨f, hf, hk, _⟩
    have : ∀ f ∈ [antiRuleB, antiRuleA].map fun r => r.filter false, ¬ Kind true f := by decide +kernel
    exact this f hf hk

/-- **C26**, violated: `ads$domain=~b.com` blocks an image `http://x.com/ads` on `a.com`, but
no longer when the blocking rule `ban$domain=~a.com` is added to the list. -/
theorem C26_counterexample (E : Env) (hroll : ∀ url, E.fp.rolls url) : ∃ c o c' o',
    (Client.fresh E).parse bs%"ads$domain=~b.com" false = .ok c ∧
    c.query bs%"http://x.com/ads" FOImage (some bs%"a.com") = .ok o ∧ o.block = true ∧
    c.parse bs%"ban$domain=~a.com" false = .ok c' ∧
    c'.query bs%"http://x.com/ads" FOImage (some bs%"a.com") = .ok o' ∧ o'.block = false := by
  obtain ⟨c, h1, h2, h3, h4⟩ := loaded E [antiRuleB] (by decide) (by decide +kernel) (by decide +kernel)
  obtain ⟨⟨o, ho⟩, -⟩ := h4 bs%"http://x.com/ads" FOImage (some bs%"a.com") (by decide)
  obtain ⟨c', h5, h6⟩ := load_rules h2 [antiRuleA] (by decide) (by decide +kernel) false
  obtain ⟨o', ho'⟩ := query_safe (history_holds h6) (fun f hf => safeRule_ok (by
    revert f; decide +kernel)) (url := bs%"http://x.com/ads") (by decide) FOImage (some bs%"a.com")
  exact ⟨c, o, c', o', h1, ho, antiRuleB_blocks hroll h2 h3 ho, h5, ho', antiRules_free hroll h6 ((parse_tags h5).trans h3) ho'⟩

def taggedHostRule : RuleText := { anchor := .host, text := bs%"ads.com^", options := some bs%"tag=x" }
def plainHostRule : RuleText := { anchor := .host, text := bs%"ads.com^" }

/-- **C30**, violated: the host rule `||ads.com^$tag=x` with its tag disabled keeps the rule
`||ads.com^` behind it from blocking, which it does when alone. -/
theorem C30_counterexample (E : Env) (hroll : ∀ url, E.fp.rolls url) : ∃ c o c' o',
    (Client.fresh E).parse bs%"||ads.com^$tag=x\n||ads.com^" false = .ok c ∧
    c.query bs%"http://ads.com/" FOImage none = .ok o ∧ o.block = false ∧
    (Client.fresh E).parse bs%"||ads.com^" false = .ok c' ∧
    c'.query bs%"http://ads.com/" FOImage none = .ok o' ∧ o'.block = true := by
  obtain ⟨c, h1, h2, h3, h4⟩ := loaded E [taggedHostRule, plainHostRule] (by decide) (by decide +kernel) (by decide +kernel)
  obtain ⟨c', h1', h2', h3', h4'⟩ := loaded E [plainHostRule] (by decide) (by decide +kernel) (by decide +kernel)
  obtain ⟨⟨o, ho⟩, -⟩ := h4 bs%"http://ads.com/" FOImage none (by decide)
  obtain ⟨⟨o', ho'⟩, -⟩ := h4' bs%"http://ads.com/" FOImage none (by decide)
  obtain ⟨hw, hl⟩ := webUrl_of_check (url := bs%"http://ads.com/") (by decide +kernel)
  have nodom : ∀ f ∈ [taggedHostRule, plainHostRule].map fun r => r.filter false, f.domainList = none := by decide +kernel
  have nodom' : ∀ f ∈ [plainHostRule].map fun r => r.filter false, f.domainList = none := by decide +kernel
  refine ⟨c, o, c', o', h1, ho, ?_, h1', ho', ?_⟩
  · rw [← Bool.not_eq_true, C23_exact h2 hw hl (by decide) (hroll _) (fun _ s g hg _ hn => by
      obtain ⟨dl, e, _⟩ := hn; rw [nodom g hg] at e; cases e) ho, h3]
    rintro ⟨⟨f, hf, hk, hc, ha⟩, -⟩
    have : ∀ f ∈ [taggedHostRule, plainHostRule].map fun r => r.filter false, Acts [] bs%"http://ads.com/" FOImage none f →
        HostRule false f ∧ ¬ FirstForHost false ([taggedHostRule, plainHostRule].map fun r => r.filter false) f := by
      unfold Acts FirstForHost
      decide +kernel
    obtain ⟨h5, h6⟩ := this f hf ha
    exact h6 (hc.host h5).1
  · have hreg : Regular E.bad ([plainHostRule].map fun r => r.filter false) bs%"http://ads.com/" none := by
      refine regular_of_no_domains nodom' ?_
      have : ∀ s, ∀ f ∈ [plainHostRule].map fun r => r.filter false, HostRule s f →
          FirstForHost s ([plainHostRule].map fun r => r.filter false) f ∧ f.host = some bs%"ads.com" ∧
          has f.filterType FTLeftAnchored = false ∧ has f.filterType FTRightAnchored = false := by
        unfold FirstForHost
        decide +kernel
      intro s f hf hh
      obtain ⟨h1, h2, h3⟩ := this s f hf hh
      exact ⟨h1, ⟨_, h2, .inr (by decide)⟩, h3⟩
    rw [C23_reference h2' hw hl (by decide) (hroll _) hreg ho', h3']
    unfold Acts
    decide +kernel

end AdBlock
