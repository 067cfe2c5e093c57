import Verif.Props.Compare
/-
Repeated and reordered rules: C51, C52.
-/
namespace AdBlock
open Spec

section
variable {bad tags : List Bytes} {fs gs : List Filter} {url : Bytes} {ctx : Mask} {dom : Option Bytes} {s : Bool}

/-- two lists with the same rules of a kind, which agree on the first host rule for each host -/
structure SameLists (s : Bool) (fs gs : List Filter) : Prop where
  mem : ∀ f, Kind s f → (f ∈ fs ↔ f ∈ gs)
  first : ∀ k, fs.find? (fun g => decide (HostRule s g ∧ g.host = k)) = gs.find? (fun g => decide (HostRule s g ∧ g.host = k))

theorem SameLists.symm (h : SameLists s fs gs) : SameLists s gs fs := ⟨fun f hk => (h.mem f hk).symm, fun k => (h.first k).symm⟩

theorem SameLists.someActs_imp (h : SameLists s fs gs) (ha : SomeActs bad tags s fs url ctx dom) :
    SomeActs bad tags s gs url ctx dom := by
  obtain ⟨f, hf, hk, hc, ha⟩ := ha
  refine ⟨f, (h.mem f hk).1 hf, hk, ⟨fun hh => ?_, hc.positive, fun hu hn d hd g hg hs hug => ?_⟩, ha⟩
  · obtain ⟨h1, h2⟩ := hc.host hh
    exact ⟨(h.first _).symm.trans h1, h2⟩
  · exact hc.negative hu hn d hd g ((h.mem g hug.1).2 hg) hs hug

theorem SameLists.someActs (h : SameLists s fs gs) :
    SomeActs bad tags s fs url ctx dom ↔ SomeActs bad tags s gs url ctx dom :=
  ⟨h.someActs_imp, h.symm.someActs_imp⟩

theorem SameLists.someListedActs_imp (h : SameLists s fs gs) (ha : SomeListedActs tags s fs url ctx dom) :
    SomeListedActs tags s gs url ctx dom := by
  obtain ⟨f, hf, hk, hl, ha⟩ := ha
  refine ⟨f, (h.mem f hk).1 hf, hk, fun hh => ?_, ha⟩
  obtain ⟨h1, h2⟩ := hl hh
  exact ⟨(h.first _).symm.trans h1, h2⟩

theorem SameLists.someListedActs (h : SameLists s fs gs) :
    SomeListedActs tags s fs url ctx dom ↔ SomeListedActs tags s gs url ctx dom :=
  ⟨h.someListedActs_imp, h.symm.someListedActs_imp⟩

/-- lists with the same rules and the same sequence of host rules -/
theorem sameLists_hosts (hm : ∀ f, Kind s f → (f ∈ fs ↔ f ∈ gs))
    (hh : fs.filter (fun g => decide (HostRule s g)) = gs.filter (fun g => decide (HostRule s g))) : SameLists s fs gs := by
  have key : ∀ (l : List Filter) k, l.find? (fun g => decide (HostRule s g ∧ g.host = k)) =
      (l.filter (fun g => decide (HostRule s g))).find? (fun g => decide (g.host = k)) := by
    intro l k
    rw [List.find?_filter]
    congr 1
    funext g
    simp
  exact ⟨hm, fun k => by rw [key, key, hh]⟩

/-- repeating rules -/
theorem sameLists_repeat (h : ∀ g ∈ gs, g ∈ fs) (s : Bool) : SameLists s fs (fs ++ gs) := by
  refine ⟨fun f _ => ⟨fun hf => List.mem_append.2 (.inl hf), fun hf => (List.mem_append.1 hf).elim id (h f)⟩, fun k => ?_⟩
  rw [List.find?_append]
  cases hf : fs.find? (fun g => decide (HostRule s g ∧ g.host = k)) with
  | some f => rfl
  | none =>
    rw [List.find?_eq_none] at hf
    symm
    simp only [Option.none_or, List.find?_eq_none]
    exact fun g hg => hf g (h g hg)

/-- No two different host rules of the same kind are for the same host. -/
def Spec.OneRulePerHost (fs : List Filter) : Prop :=
  ∀ s, ∀ f ∈ fs, ∀ g ∈ fs, HostRule s f → HostRule s g → f.host = g.host → f = g

/-- reordering rules -/
theorem sameLists_order (hm : ∀ f, f ∈ fs ↔ f ∈ gs) (h1 : OneRulePerHost fs) (s : Bool) : SameLists s fs gs := by
  refine ⟨fun f _ => hm f, fun k => ?_⟩
  cases hf : fs.find? (fun g => decide (HostRule s g ∧ g.host = k)) with
  | none =>
    rw [List.find?_eq_none] at hf
    symm
    rw [List.find?_eq_none]
    exact fun g hg => hf g ((hm g).2 hg)
  | some f =>
    have hff := List.find?_some hf
    have hfm := List.mem_of_find?_eq_some hf
    simp only [decide_eq_true_eq] at hff
    cases hg : gs.find? (fun g => decide (HostRule s g ∧ g.host = k)) with
    | none =>
      rw [List.find?_eq_none] at hg
      exact absurd (by simpa using hff) (hg f ((hm f).1 hfm))
    | some g =>
      have hgg := List.find?_some hg
      have hgm := List.mem_of_find?_eq_some hg
      simp only [decide_eq_true_eq] at hgg
      rw [h1 s f hfm g ((hm g).2 hgm) hff.1 hgg.1 (hff.2.trans hgg.2.symm)]

end

section
variable {E : Env} {c d : Client E} {fs gs : List Filter} {url : Bytes} {co : Mask} {dom : Option Bytes}

theorem same_query (hist : History E c fs) (hist' : History E d gs) (h : ∀ s, SameLists s fs gs)
    (htags : d.tags = c.tags) (hw : WebUrl url) (hl : 5 < url.length) (h0 : 0 ∉ url) (hroll : E.fp.rolls url)
    (hne : dom = none → ∀ s, NoEmptyExclusion E.bad s fs)
    {o o' : Outcome E} (hq : c.query url co dom = .ok o) (hq' : d.query url co dom = .ok o') : o'.block = o.block := by
  have hne' : dom = none → ∀ s, NoEmptyExclusion E.bad s gs := fun hd s g hg hu => hne hd s g (((h s).mem g hu.1).2 hg) hu
  rw [Bool.eq_iff_iff, C23_exact hist' hw hl h0 hroll hne' hq', C23_exact hist hw hl h0 hroll hne hq, htags,
    (h false).someActs, (h true).someActs]

theorem same_find (hist : History E c fs) (hist' : History E d gs) (h : ∀ s, SameLists s fs gs)
    (htags : d.tags = c.tags) {r r' : Found} (hq : c.findMatchingFilters url co dom = .ok r)
    (hq' : d.findMatchingFilters url co dom = .ok r') : r'.block = r.block := by
  rw [Bool.eq_iff_iff, C24_find_exact hist' hq', C24_find_exact hist hq, htags,
    (h false).someListedActs, (h true).someListedActs]

/-! ### C51: repeated rules -/

/-- **C51**: a client whose rules `gs` are already among the rules `fs` gives the same verdicts
as one which has only loaded `fs`. -/
theorem C51_repeated_rules (hist : History E c fs) (hist' : History E d (fs ++ gs)) (hg : ∀ g ∈ gs, g ∈ fs)
    (htags : d.tags = c.tags) (hw : WebUrl url) (hl : 5 < url.length) (h0 : 0 ∉ url) (hroll : E.fp.rolls url)
    (hne : dom = none → ∀ s, NoEmptyExclusion E.bad s fs)
    {o o' : Outcome E} (hq : c.query url co dom = .ok o) (hq' : d.query url co dom = .ok o') : o'.block = o.block :=
  same_query hist hist' (sameLists_repeat hg) htags hw hl h0 hroll hne hq hq'

/-- **C51** for `findMatchingFilters` -/
theorem C51_repeated_rules_find (hist : History E c fs) (hist' : History E d (fs ++ gs)) (hg : ∀ g ∈ gs, g ∈ fs)
    (htags : d.tags = c.tags) {r r' : Found} (hq : c.findMatchingFilters url co dom = .ok r)
    (hq' : d.findMatchingFilters url co dom = .ok r') : r'.block = r.block :=
  same_find hist hist' (sameLists_repeat hg) htags hq hq'

theorem reads_mem {preserve : Bool} {bad : List Bytes} {ls ms : List Bytes} {fs gs : List Filter} (h : Reads bad preserve ls fs)
    (h' : Reads bad preserve ms gs) (hs : ∀ l ∈ ms, l ∈ ls) : ∀ g ∈ gs, g ∈ fs := by
  have key : ∀ {ls fs}, Reads bad preserve ls fs → ∀ l ∈ ls, ∃ f e, f ∈ fs ∧ parseFilter bad l 0 preserve true = .ok (f, e) := by
    intro ls fs h
    induction h with
    | nil => simp
    | @cons l ls f fs e hp _ ih =>
      intro m hm
      rcases List.mem_cons.1 hm with rfl | hm
      · exact ⟨f, e, by simp, hp⟩
      · obtain ⟨f', e', h1, h2⟩ := ih m hm
        exact ⟨f', e', List.mem_cons_of_mem _ h1, h2⟩
  induction h' with
  | nil => simp
  | @cons l ms g gs e hp _ ih =>
    intro g' hg'
    rcases List.mem_cons.1 hg' with rfl | hg'
    · obtain ⟨f, e', h1, h2⟩ := key h l (hs l (by simp))
      rw [hp] at h2
      cases h2
      exact h1
    · exact ih (fun l hl => hs l (List.mem_cons_of_mem _ hl)) g' hg'

/-- **C51**: loading a list, and then again (some of) its lines, gives the same verdicts as
loading it once. -/
theorem C51_loading_twice (hist : History E c fs) {A B : Bytes} (hA : 0 ∉ A) (hB : 0 ∉ B) (hs : ∀ l ∈ lines B, l ∈ lines A)
    {preserve : Bool} {c1 c2 : Client E} (h1 : c.parse A preserve = .ok c1) (h2 : c1.parse B preserve = .ok c2)
    {as bs : List Filter} (ha : Reads E.bad preserve (lines A) as) (hb : Reads E.bad preserve (lines B) bs)
    (hw : WebUrl url) (hl : 5 < url.length) (h0 : 0 ∉ url) (hroll : E.fp.rolls url)
    (hne : dom = none → ∀ s, NoEmptyExclusion E.bad s (fs ++ as))
    {o o' : Outcome E} (hq : c1.query url co dom = .ok o) (hq' : c2.query url co dom = .ok o') : o'.block = o.block :=
  C51_repeated_rules (.parse hist hA h1 ha) (.parse (.parse hist hA h1 ha) hB h2 hb)
    (fun g hg => List.mem_append.2 (.inr (reads_mem ha hb hs g hg)))
    (parse_tags h2) hw hl h0 hroll hne hq hq'

/-! ### C52: the order of rules -/

/-- **C52**: two clients with the same rules, loaded in any order and any number of times, give
the same verdicts, unless different host rules of the same kind are for the same host. -/
theorem C52_order_partial (hist : History E c fs) (hist' : History E d gs) (hm : ∀ f, f ∈ fs ↔ f ∈ gs)
    (h1 : OneRulePerHost fs)
    (htags : d.tags = c.tags) (hw : WebUrl url) (hl : 5 < url.length) (h0 : 0 ∉ url) (hroll : E.fp.rolls url)
    (hne : dom = none → ∀ s, NoEmptyExclusion E.bad s fs)
    {o o' : Outcome E} (hq : c.query url co dom = .ok o) (hq' : d.query url co dom = .ok o') : o'.block = o.block :=
  same_query hist hist' (sameLists_order hm h1) htags hw hl h0 hroll hne hq hq'

/-- **C52** for `findMatchingFilters` -/
theorem C52_order_find_partial (hist : History E c fs) (hist' : History E d gs) (hm : ∀ f, f ∈ fs ↔ f ∈ gs)
    (h1 : OneRulePerHost fs) (htags : d.tags = c.tags) {r r' : Found} (hq : c.findMatchingFilters url co dom = .ok r)
    (hq' : d.findMatchingFilters url co dom = .ok r') : r'.block = r.block :=
  same_find hist hist' (sameLists_order hm h1) htags hq hq'

/-- **C52** in terms of the lists: a new client loading the lines in another order gives the same
verdicts. -/
theorem C52_lines_partial {A B : Bytes} (hA : 0 ∉ A) (hB : 0 ∉ B) (hs : ∀ l, l ∈ lines A ↔ l ∈ lines B) {preserve : Bool}
    (h1 : (Client.fresh E).parse A preserve = .ok c) (h2 : (Client.fresh E).parse B preserve = .ok d)
    (ha : Reads E.bad preserve (lines A) fs) (hb : Reads E.bad preserve (lines B) gs) (ho : OneRulePerHost fs)
    (hw : WebUrl url) (hl : 5 < url.length) (h0 : 0 ∉ url) (hroll : E.fp.rolls url)
    (hne : dom = none → ∀ s, NoEmptyExclusion E.bad s fs)
    {o o' : Outcome E} (hq : c.query url co dom = .ok o) (hq' : d.query url co dom = .ok o') : o'.block = o.block :=
  C52_order_partial (.parse .new hA h1 ha) (.parse .new hB h2 hb)
    (fun f => ⟨reads_mem hb ha (fun l hl => (hs l).1 hl) f, reads_mem ha hb (fun l hl => (hs l).2 hl) f⟩) ho
    ((parse_tags h2).trans (parse_tags h1).symm) hw hl h0 hroll hne hq hq'

end

/-! ### examples and counterexample -/

def scriptHostRule : RuleText := { anchor := .host, text := bs%"ads.com^", options := some bs%"script" }
def imageHostRule : RuleText := { anchor := .host, text := bs%"ads.com^", options := some bs%"image" }
def otherRule : RuleText := { text := bs%"banner" }

/-- a client which has loaded two rules, and one which has loaded them in the other order and
one of them again -/
example : ∃ (c d : Client toyEnv) (fs gs : List Filter) (o o' : Outcome toyEnv),
    History toyEnv c fs ∧ History toyEnv d gs ∧ fs ≠ gs ∧ (∀ f, f ∈ fs ↔ f ∈ gs) ∧ OneRulePerHost fs ∧ d.tags = c.tags ∧
    c.query bs%"http://ads.com/" FOScript none = .ok o ∧ d.query bs%"http://ads.com/" FOScript none = .ok o' ∧
    WebUrl bs%"http://ads.com/" ∧ toyEnv.fp.rolls bs%"http://ads.com/" ∧ (∀ s, NoEmptyExclusion toyEnv.bad s fs) := by
  obtain ⟨c, _, h2, h3, h4⟩ := loaded toyEnv [scriptHostRule, otherRule] (by decide) (by decide +kernel) (by decide +kernel)
  obtain ⟨d, _, h2', h3', h4'⟩ := loaded toyEnv [otherRule, scriptHostRule, otherRule] (by decide) (by decide +kernel)
    (by decide +kernel)
  obtain ⟨⟨o, ho⟩, -⟩ := h4 bs%"http://ads.com/" FOScript none (by decide)
  obtain ⟨⟨o', ho'⟩, -⟩ := h4' bs%"http://ads.com/" FOScript none (by decide)
  have nodom : ∀ f ∈ [scriptHostRule, otherRule].map fun r => r.filter false, f.domainList = none := by decide +kernel
  refine ⟨c, d, _, _, o, o', h2, h2', by decide +kernel, fun f => ?_, ?_, h3'.trans h3.symm, ho, ho',
    (webUrl_of_check (by decide +kernel)).1, trivial, fun s g hg _ hn => ?_⟩
  · simp only [List.map_cons, List.map_nil, List.mem_cons, List.not_mem_nil, or_false]
    constructor
    · rintro (h | h) <;> simp [h]
    · rintro (h | h | h) <;> simp [h]
  · unfold OneRulePerHost
    decide +kernel
  · obtain ⟨dl, e, _⟩ := hn; rw [nodom g hg] at e; cases e

/-- **C52**, violated: if two host rules are for the same host, only the first one counts. -/
theorem C52_counterexample (E : Env) (hroll : ∀ url, E.fp.rolls url) : ∃ c o c' o',
    (Client.fresh E).parse bs%"||ads.com^$script\n||ads.com^$image" false = .ok c ∧
    c.query bs%"http://ads.com/" FOImage none = .ok o ∧ o.block = false ∧
    (Client.fresh E).parse bs%"||ads.com^$image\n||ads.com^$script" false = .ok c' ∧
    c'.query bs%"http://ads.com/" FOImage none = .ok o' ∧ o'.block = true := by
  obtain ⟨c, h1, h2, h3, h4⟩ := loaded E [scriptHostRule, imageHostRule] (by decide) (by decide +kernel) (by decide +kernel)
  obtain ⟨c', h1', h2', h3', h4'⟩ := loaded E [imageHostRule, scriptHostRule] (by decide) (by decide +kernel) (by decide +kernel)
  obtain ⟨⟨o, ho⟩, -⟩ := h4 bs%"http://ads.com/" FOImage none (by decide)
  obtain ⟨⟨o', ho'⟩, -⟩ := h4' bs%"http://ads.com/" FOImage none (by decide)
  obtain ⟨hw, hl⟩ := webUrl_of_check (url := bs%"http://ads.com/") (by decide +kernel)
  have nodom : ∀ f ∈ [scriptHostRule, imageHostRule].map fun r => r.filter false, f.domainList = none := by decide +kernel
  have nodom' : ∀ f ∈ [imageHostRule, scriptHostRule].map fun r => r.filter false, f.domainList = none := by decide +kernel
  refine ⟨c, o, c', o', h1, ho, ?_, h1', ho', ?_⟩
  · rw [← Bool.not_eq_true, C23_exact h2 hw hl (by decide) (hroll _) (fun _ s g hg _ hn => by
      obtain ⟨dl, e, _⟩ := hn; rw [nodom g hg] at e; cases e) ho, h3]
    rintro ⟨⟨f, hf, hk, hc, ha⟩, -⟩
    have : ∀ f ∈ [scriptHostRule, imageHostRule].map fun r => r.filter false, Acts [] bs%"http://ads.com/" FOImage none f →
        HostRule false f ∧ ¬ FirstForHost false ([scriptHostRule, imageHostRule].map fun r => r.filter false) f := by
      unfold Acts FirstForHost
      decide +kernel
    obtain ⟨h5, h6⟩ := this f hf ha
    exact h6 (hc.host h5).1
  · rw [C23_exact h2' hw hl (by decide) (hroll _) (fun _ s g hg _ hn => by
      obtain ⟨dl, e, _⟩ := hn; rw [nodom' g hg] at e; cases e) ho', h3']
    have hctx : resolveContext bs%"http://ads.com/" FOImage none = FOImage := by decide +kernel
    rw [hctx]
    constructor
    · refine ⟨imageHostRule.filter false, by simp, by unfold Kind; decide +kernel, ⟨fun _ => ⟨?_, ?_⟩, ?_, ?_⟩, ?_⟩
      · unfold FirstForHost; decide +kernel
      · rw [show getUrlHost bs%"http://ads.com/" = bs%"ads.com" by decide +kernel,
          show ((imageHostRule.filter false).host.getD []) = bs%"ads.com" by decide +kernel]
        exact ⟨.inl rfl, .inl rfl⟩
      · intro _ hp; obtain ⟨dl, e, _⟩ := hp; rw [nodom' _ (by simp)] at e; cases e
      · intro _ hp; obtain ⟨dl, e, _⟩ := hp; rw [nodom' _ (by simp)] at e; cases e
      · unfold Acts; decide +kernel
    · rintro ⟨f, hf, hk, -⟩
      have : ∀ f ∈ [imageHostRule, scriptHostRule].map fun r => r.filter false, ¬ Kind true f := by
        unfold Kind
        decide +kernel
      exact this f hf hk

end AdBlock
