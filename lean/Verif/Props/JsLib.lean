import Verif.Model.JsLib
import Verif.Props.Order
/-
The preprocessing of filter lists by the JavaScript package: C48, C53.
-/
namespace AdBlock
open Spec

/-! ### splitting and joining -/

theorem jsSplit_ne_nil (s : Bytes) : jsSplit s ≠ [] := by
  induction s with
  | nil => simp [jsSplit]
  | cons c s ih =>
    obtain ⟨l, ls, h⟩ := List.exists_cons_of_ne_nil ih
    simp only [jsSplit, h]
    split <;> simp

theorem jsSplit_eq (s : Bytes) : jsSplit s = splitOn 10 s := by
  induction s with
  | nil => rfl
  | cons c s ih =>
    obtain ⟨l, ls, h⟩ := List.exists_cons_of_ne_nil (jsSplit_ne_nil s)
    simp only [jsSplit, h]
    rw [ih] at h
    by_cases hc : c = 10
    · subst hc; rw [splitOn_cons_sep, h]; rfl
    · rw [splitOn_cons_of_ne hc h, if_neg hc]

theorem splitOn_no_sep {sep : Byte} {s : Bytes} (h : sep ∉ s) : splitOn sep s = [s] := by
  induction s with
  | nil => rfl
  | cons c s ih =>
    simp only [List.mem_cons, not_or] at h
    rw [splitOn_cons_of_ne (Ne.symm h.1) (ih h.2)]

theorem splitOn_pieces {sep : Byte} {s p : Bytes} (h : p ∈ splitOn sep s) : sep ∉ p := by
  induction s generalizing p with
  | nil => simp only [splitOn, List.mem_singleton] at h; subst h; simp
  | cons c s ih =>
    obtain ⟨q, qs, hq⟩ := List.exists_cons_of_ne_nil (splitOn_ne_nil sep s)
    by_cases hc : c = sep
    · subst hc
      rw [splitOn_cons_sep] at h
      rcases List.mem_cons.1 h with rfl | h
      · simp
      · exact ih h
    · rw [splitOn_cons_of_ne hc hq] at h
      rw [hq] at ih
      rcases List.mem_cons.1 h with rfl | h
      · simp only [List.mem_cons, not_or]
        exact ⟨Ne.symm hc, ih (by simp)⟩
      · exact ih (List.mem_cons_of_mem _ h)

theorem splitOn_jsJoin {ls : List Bytes} (hne : ls ≠ []) : splitOn 10 (jsJoin ls) = ls.flatMap (splitOn 10) := by
  induction ls with
  | nil => exact absurd rfl hne
  | cons l ls ih =>
    cases ls with
    | nil => simp [jsJoin]
    | cons m ls => simp only [jsJoin, splitOn_append, ih (by simp), List.flatMap_cons]

theorem splitOn_jsJoin_lines {ls : List Bytes} (hne : ls ≠ []) (h : ∀ l ∈ ls, 10 ∉ l) : splitOn 10 (jsJoin ls) = ls := by
  rw [splitOn_jsJoin hne]
  clear hne
  induction ls with
  | nil => rfl
  | cons l ls ih =>
    rw [List.flatMap_cons, splitOn_no_sep (h l (by simp)), ih fun m hm => h m (by simp [hm])]
    rfl

theorem mapRule_line {rule : Bytes} (h : 10 ∉ rule) : 10 ∉ mapRule rule := by
  unfold mapRule
  split
  · decide
  · split
    · decide
    · exact h

/-! ### C48 -/

/-- The two lines which are rewritten. -/
def Spec.Rewritten (rule : Bytes) : Prop := rule = bs%"||imasdk.googleapis.com^$third-party" ∨ rule = bs%"/ima3.js"

theorem mapRule_eq {rule : Bytes} (h : ¬ Rewritten rule) : mapRule rule = rule := by
  unfold Rewritten at h
  simp only [not_or] at h
  simp [mapRule, h.1, h.2]

/-- **C48**: the lines of the result are, in order, the lines of the input which the predicate
accepts, two of them rewritten, and the extra rules. -/
theorem C48_lines (input : Bytes) (p : Bytes → Bool) :
    splitOn 10 (sanitizeABPInput input p) = ((splitOn 10 input).filter p).map mapRule ++ extraConcatRules := by
  unfold sanitizeABPInput
  rw [jsSplit_eq, splitOn_jsJoin_lines]
  · simp [extraConcatRules]
  · intro l hl
    rcases List.mem_append.1 hl with hl | hl
    · obtain ⟨m, hm, rfl⟩ := List.mem_map.1 hl
      exact mapRule_line (splitOn_pieces (List.mem_filter.1 hm).1)
    · exact (by decide : ∀ l ∈ extraConcatRules, 10 ∉ l) l hl

/-- **C48**: the two rewritten lines get the option `explicitcancel`; no other line is changed. -/
theorem C48_rewriting (rule : Bytes) :
    (¬ Rewritten rule → mapRule rule = rule) ∧
    mapRule bs%"||imasdk.googleapis.com^$third-party" = bs%"||imasdk.googleapis.com^$third-party,explicitcancel" ∧
    mapRule bs%"/ima3.js" = bs%"/ima3.js$explicitcancel" :=
  ⟨mapRule_eq, by decide, by decide⟩

/-- **C48**: each extra rule is appended exactly once per call. -/
theorem C48_extra_rules_once (input : Bytes) (p : Bytes → Bool) (rule : Bytes) (h : rule ∈ extraConcatRules) :
    (splitOn 10 (sanitizeABPInput input p)).count rule = ((splitOn 10 input).filter p).count rule + 1 := by
  have h2 : ¬ Rewritten rule := (by unfold Rewritten; decide : ∀ r ∈ extraConcatRules, ¬ Rewritten r) rule h
  have h1 : ∀ ls : List Bytes, (ls.map mapRule).count rule = ls.count rule := by
    intro ls
    have hne : rule ≠ bs%"||imasdk.googleapis.com^$third-party,explicitcancel" ∧ rule ≠ bs%"/ima3.js$explicitcancel" :=
      (by decide : ∀ r ∈ extraConcatRules, r ≠ bs%"||imasdk.googleapis.com^$third-party,explicitcancel" ∧
        r ≠ bs%"/ima3.js$explicitcancel") rule h
    induction ls with
    | nil => rfl
    | cons l ls ih =>
      rw [List.map_cons, List.count_cons, List.count_cons, ih]
      congr 1
      by_cases hl : Rewritten l
      · have : mapRule l ≠ rule := by
          rcases hl with rfl | rfl
          · exact fun e => hne.1 (e.symm.trans (C48_rewriting []).2.1)
          · exact fun e => hne.2 (e.symm.trans (C48_rewriting []).2.2)
        have h3 : l ≠ rule := fun e => h2 (e ▸ hl)
        simp [this, h3]
      · rw [mapRule_eq hl]
  rw [C48_lines, List.count_append, h1]
  congr 1
  exact (by decide : ∀ r ∈ extraConcatRules, extraConcatRules.count r = 1) rule h

/-- **C48**: preprocessing the result once more only appends the extra rules again. -/
theorem C48_twice (input : Bytes) :
    splitOn 10 (sanitizeABPInput (sanitizeABPInput input)) =
      splitOn 10 (sanitizeABPInput input) ++ extraConcatRules := by
  rw [C48_lines, C48_lines input]
  congr 1
  rw [List.filter_append, List.map_append]
  congr 1
  · have h1 : ∀ l, jsTruthy (mapRule l) = jsTruthy l := by
      intro l
      by_cases hl : Rewritten l
      · rcases hl with rfl | rfl <;> decide
      · rw [mapRule_eq hl]
    have h2 : ∀ l, mapRule (mapRule l) = mapRule l := by
      intro l
      by_cases hl : Rewritten l
      · rcases hl with rfl | rfl <;> decide
      · rw [mapRule_eq hl, mapRule_eq hl]
    rw [List.filter_map, List.map_map]
    have e : jsTruthy ∘ mapRule = jsTruthy := funext h1
    have e' : mapRule ∘ mapRule = mapRule := funext h2
    rw [e, e', List.filter_filter]
    simp

example : sanitizeABPInput bs%"||a.com^\n\n/ima3.js\r\n/ima3.js\n" =
    bs%"||a.com^\n/ima3.js\r\n/ima3.js$explicitcancel\n||imasdk.googleapis.com/$third-party\n^ima3.js" := by decide +kernel

/-! ### C53 -/

/-- The options which only alter what is done with a request that a rule matches (and the one
for first parties, which is never looked at). -/
def behaviouralOptions : Mask := FORedirect ||| FOImportant ||| FOExplicitCancel ||| FONotThirdParty

/-- The rule without these options and without its original text. -/
def plain (f : Filter) : Filter :=
  { f with filterOption := f.filterOption &&& ~~~behaviouralOptions, ruleDefinition := none }

theorem plain_or (f : Filter) : (plain f).filterOption ||| (f.filterOption &&& behaviouralOptions) = f.filterOption := by
  show (f.filterOption &&& ~~~behaviouralOptions) ||| (f.filterOption &&& behaviouralOptions) = _
  ext i hi
  simp only [BitVec.getElem_or, BitVec.getElem_and, BitVec.getElem_not]
  cases f.filterOption[i] <;> cases behaviouralOptions[i] <;> rfl

theorem matches_plain (f : Filter) (url : Bytes) (ctx : Mask) (dom : Option Bytes) (bloom : Option (Bytes → Bool)) :
    (plain f).matches url ctx dom bloom = f.matches url ctx dom bloom := by
  have e : ∀ k : Mask, behaviouralOptions &&& k = 0#32 → (f.filterOption &&& behaviouralOptions) &&& k = 0#32 := by
    intro k hk
    rw [BitVec.and_assoc, hk]
    simp
  rw [← matches_ignored_bit (m := f.filterOption &&& behaviouralOptions) (e _ (by decide)) (e _ (by decide))
    (e _ (by decide)) (e _ (by decide)) (e _ (by decide)) (plain f), plain_or]
  have ho : Filter.matchesOptions { plain f with filterOption := f.filterOption } ctx dom = f.matchesOptions ctx dom :=
    matchesOptions_congr (f := { plain f with filterOption := f.filterOption }) (g := f) rfl rfl rfl ctx dom
  exact matches_congr (f := { plain f with filterOption := f.filterOption }) (g := f) ho rfl rfl rfl rfl url bloom

theorem plain_keeping : Keeping plain where
  filterType _ := rfl
  data _ := rfl
  dataLen _ := rfl
  host _ := rfl
  domainList _ := rfl
  unsupported f := by
    show has (plain f).filterOption _ = has f.filterOption _
    conv => rhs; rw [← plain_or f]
    rw [has_or_left]
    have : has (f.filterOption &&& behaviouralOptions) FOUnsupportedSoSkipCheck = false := by
      unfold has
      rw [BitVec.and_assoc, show behaviouralOptions &&& FOUnsupportedSoSkipCheck = 0#32 by decide]
      simp
    rw [this, Bool.or_false]

theorem acts_plain (tags : List Bytes) (url : Bytes) (ctx : Mask) (dom : Option Bytes) (f : Filter) :
    Acts tags url ctx dom (plain f) ↔ Acts tags url ctx dom f := by
  unfold Acts
  rw [matches_plain]
  rfl

section
variable {E : Env} {c d : Client E} {fs gs : List Filter} {url : Bytes} {co : Mask} {dom : Option Bytes}

theorem alike_query (hist : History E c fs) (hist' : History E d gs) (h : ∀ s, SameLists s (fs.map plain) (gs.map plain))
    (htags : d.tags = c.tags) (hw : WebUrl url) (hl : 5 < url.length) (h0 : 0 ∉ url) (hroll : E.fp.rolls url)
    (hne : dom = none → ∀ s, NoEmptyExclusion E.bad s fs)
    {o o' : Outcome E} (hq : c.query url co dom = .ok o) (hq' : d.query url co dom = .ok o') : o'.block = o.block := by
  have hne' : dom = none → ∀ s, NoEmptyExclusion E.bad s gs := fun hd s => by
    rw [← plain_keeping.noEmptyExclusion]
    have := (plain_keeping.noEmptyExclusion _ _ _).2 (hne hd s)
    exact fun g hg hu => this g (((h s).mem g hu.1).2 hg) hu
  have k : ∀ s fs, SomeActs E.bad c.tags s fs url (resolveContext url co dom) dom ↔
      SomeActs E.bad c.tags s (fs.map plain) url (resolveContext url co dom) dom :=
    fun s fs => (plain_keeping.someActs (fun f _ => acts_plain ..) E.bad s).symm
  rw [Bool.eq_iff_iff, C23_exact hist' hw hl h0 hroll hne' hq', C23_exact hist hw hl h0 hroll hne hq, htags,
    k false fs, k false gs, k true fs, k true gs, (h false).someActs, (h true).someActs]

/-- **C53**: two clients whose rules differ only in the options `redirect`, `important` and
`explicitcancel` (and in whether the original text was kept) give the same verdicts. -/
theorem C53_behavioural_options (hist : History E c fs) (hist' : History E d gs) (h : fs.map plain = gs.map plain)
    (htags : d.tags = c.tags) (hw : WebUrl url) (hl : 5 < url.length) (h0 : 0 ∉ url) (hroll : E.fp.rolls url)
    (hne : dom = none → ∀ s, NoEmptyExclusion E.bad s fs)
    {o o' : Outcome E} (hq : c.query url co dom = .ok o) (hq' : d.query url co dom = .ok o') : o'.block = o.block :=
  alike_query hist hist' (fun _ => h ▸ ⟨fun _ _ => Iff.rfl, fun _ => rfl⟩) htags hw hl h0 hroll hne hq hq'

/-- **C53** for a single rule: these options do not change which requests it matches. -/
theorem C53_rule (f g : Filter) (h : plain f = plain g) (url : Bytes) (ctx : Mask) (dom : Option Bytes) :
    f.matches url ctx dom none = g.matches url ctx dom none := by
  rw [← matches_plain f, ← matches_plain g, h]

end

/-! ### C48 for clients -/

/-- the rules read from a piece of text, as far as they matter for verdicts -/
def readText (bad : List Bytes) (pr : Bool) (text : Bytes) : List Filter :=
  (lines text).filterMap fun l => match parseFilter bad l 0 pr true with
    | .ok (f, _) => some (plain f)
    | .ub _ => none

theorem reads_plain {bad : List Bytes} {pr : Bool} {ls : List Bytes} {fs : List Filter} (h : Reads bad pr ls fs) :
    fs.map plain = ls.filterMap fun l => match parseFilter bad l 0 pr true with
      | .ok (f, _) => some (plain f)
      | .ub _ => none := by
  induction h with
  | nil => rfl
  | cons hp _ ih => rw [List.map_cons, List.filterMap_cons, hp, ih]

theorem readText_append (bad : List Bytes) (pr : Bool) (a b : Bytes) :
    readText bad pr (a ++ 10 :: b) = readText bad pr a ++ readText bad pr b := by
  unfold readText
  rw [lines_append a b (.inr rfl), List.filterMap_append]

theorem readText_jsJoin (bad : List Bytes) (pr : Bool) {ls : List Bytes} (hne : ls ≠ []) :
    readText bad pr (jsJoin ls) = ls.flatMap (readText bad pr) := by
  induction ls with
  | nil => exact absurd rfl hne
  | cons l ls ih =>
    cases ls with
    | nil => simp [jsJoin]
    | cons m ls => simp only [jsJoin, readText_append, ih (by simp), List.flatMap_cons]

theorem jsJoin_splitOn (s : Bytes) : jsJoin (splitOn 10 s) = s := by
  induction s with
  | nil => rfl
  | cons c s ih =>
    obtain ⟨l, ls, h⟩ := List.exists_cons_of_ne_nil (splitOn_ne_nil 10 s)
    rw [h] at ih
    by_cases hc : c = 10
    · subst hc
      rw [splitOn_cons_sep, h, jsJoin, ih]
      · rfl
      · simp
    · rw [splitOn_cons_of_ne hc h, ← ih]
      cases ls with
      | nil => rfl
      | cons m ls => rfl

theorem readText_pieces (bad : List Bytes) (pr : Bool) (s : Bytes) :
    readText bad pr s = (splitOn 10 s).flatMap (readText bad pr) := by
  rw [← readText_jsJoin bad pr (splitOn_ne_nil 10 s), jsJoin_splitOn]

theorem readText_rule (bad : List Bytes) (pr : Bool) {r : RuleText} (hw : r.WellFormed) :
    readText bad pr r.line = [plain (r.filter pr)] := by
  obtain ⟨fp, _, hp⟩ := C22_rule_text bad hw (t := 0) (.inl rfl) pr true
  unfold readText
  rw [lines_single fun c hc => (rule_line_clean hw c hc).2]
  simp [hp]

def imaHostRule (o : Bytes) : RuleText := { anchor := .host, text := bs%"imasdk.googleapis.com^", options := some o }
def imaScriptRule (o : Option Bytes) : RuleText := { text := bs%"/ima3.js", options := o }

theorem imaScriptRule_usual {o : Option Bytes} (h : o = none ∨ o = some bs%"explicitcancel") : (imaScriptRule o).Usual where
  odd := rfl
  indent := by simp [imaScriptRule]
  nonempty := by simp [imaScriptRule]
  plain := by simp only [imaScriptRule]; decide
  hash := by
    intro a d b e
    have : ch%'#' ∈ (imaScriptRule o).text := by rw [e]; simp
    exact absurd this (by simp only [imaScriptRule]; decide)
  first := by
    intro _ c hc
    simp only [imaScriptRule, List.head?_cons, Option.some.injEq] at hc
    subst hc
    refine ⟨by decide, by decide, fun _ => ?_⟩
    rcases h with rfl | rfl <;> decide
  opts := by
    intro p hp
    simp only [imaScriptRule] at hp
    rcases h with rfl | rfl
    · cases hp
    · cases hp
      decide
  short := by rcases h with rfl | rfl <;> decide

theorem imaScriptRule_wf {o : Option Bytes} (h : o = none ∨ o = some bs%"explicitcancel") : (imaScriptRule o).WellFormed :=
  .usual (imaScriptRule_usual h)

theorem plain_filter {r q : RuleText} (h : plain (r.filter false) = plain (q.filter false)) (pr : Bool) :
    plain (r.filter pr) = plain (q.filter pr) := by
  have : ∀ r : RuleText, plain (r.filter pr) = plain (r.filter false) := by intro r; cases pr <;> rfl
  rw [this, this, h]

/-- The rewritten rules mean the same, as far as verdicts are concerned. -/
theorem readText_mapRule (bad : List Bytes) (pr : Bool) (l : Bytes) : readText bad pr (mapRule l) = readText bad pr l := by
  by_cases h : Rewritten l
  · rcases h with rfl | rfl
    · rw [(C48_rewriting []).2.1]
      rw [show bs%"||imasdk.googleapis.com^$third-party,explicitcancel" = (imaHostRule bs%"third-party,explicitcancel").line by decide,
        show bs%"||imasdk.googleapis.com^$third-party" = (imaHostRule bs%"third-party").line by decide,
        readText_rule bad pr (RuleText.wellFormed (by decide)), readText_rule bad pr (RuleText.wellFormed (by decide)),
        plain_filter (q := imaHostRule bs%"third-party") (by decide +kernel) pr]
    · rw [(C48_rewriting []).2.2]
      rw [show bs%"/ima3.js$explicitcancel" = (imaScriptRule (some bs%"explicitcancel")).line by decide,
        show bs%"/ima3.js" = (imaScriptRule none).line by decide,
        readText_rule bad pr (imaScriptRule_wf (.inr rfl)), readText_rule bad pr (imaScriptRule_wf (.inl rfl)),
        plain_filter (q := imaScriptRule none) (by decide +kernel) pr]
  · rw [mapRule_eq h]

theorem readText_empty (bad : List Bytes) (pr : Bool) (f : Filter) (h : f ∈ readText bad pr []) (s : Bool) : ¬ Kind s f := by
  unfold readText at h
  rw [show lines [] = [[]] from rfl] at h
  have e : ∀ bad pr, ∃ e, parseFilter bad [] 0 pr true = .ok ({ filterType := FTEmpty }, e) := by
    intro bad pr; exact ⟨.none, by cases pr <;> rfl⟩
  obtain ⟨e, he⟩ := e bad pr
  simp only [List.filterMap_cons, he, List.filterMap_nil, List.mem_singleton] at h
  subst h
  cases s <;> (unfold Kind; decide)

/-- two lists with the same rules and the same sequence of host rules -/
structure SameMeaning (s : Bool) (fs gs : List Filter) : Prop where
  mem : ∀ f, Kind s f → (f ∈ fs ↔ f ∈ gs)
  hosts : fs.filter (fun g => decide (HostRule s g)) = gs.filter (fun g => decide (HostRule s g))

theorem SameMeaning.refl (s : Bool) (fs : List Filter) : SameMeaning s fs fs := ⟨fun _ _ => Iff.rfl, rfl⟩

theorem SameMeaning.trans {s : Bool} {fs gs hs : List Filter} (h : SameMeaning s fs gs) (h' : SameMeaning s gs hs) : SameMeaning s fs hs :=
  ⟨fun f hk => (h.mem f hk).trans (h'.mem f hk), h.hosts.trans h'.hosts⟩

theorem SameMeaning.append {s : Bool} {fs gs fs' gs' : List Filter} (h : SameMeaning s fs gs) (h' : SameMeaning s fs' gs') :
    SameMeaning s (fs ++ fs') (gs ++ gs') :=
  ⟨fun f hk => by rw [List.mem_append, List.mem_append, h.mem f hk, h'.mem f hk],
    by rw [List.filter_append, List.filter_append, h.hosts, h'.hosts]⟩

/-- the rules the preprocessing appends -/
def extraRules (bad : List Bytes) (pr : Bool) : List Filter := extraConcatRules.flatMap (readText bad pr)

theorem extraRules_hosts (bad : List Bytes) (pr s : Bool) :
    (extraRules bad pr).filter (fun g => decide (HostRule s g)) = [] := by
  have e : extraConcatRules = [RuleText.line { anchor := .host, text := bs%"imasdk.googleapis.com/", options := some bs%"third-party" },
      RuleText.line { text := bs%"^ima3.js" }] := by decide
  unfold extraRules
  rw [e]
  simp only [List.flatMap_cons, List.flatMap_nil, List.append_nil]
  rw [readText_rule bad pr (RuleText.wellFormed (by decide)), readText_rule bad pr (RuleText.wellFormed (by decide))]
  cases pr <;> cases s <;> decide +kernel

theorem alike_extra_again {s : Bool} {bad : List Bytes} {pr : Bool} {fs gs : List Filter} (h : SameMeaning s fs (gs ++ extraRules bad pr)) :
    SameMeaning s (fs ++ extraRules bad pr) (gs ++ extraRules bad pr) := by
  refine ⟨fun f hk => ?_, ?_⟩
  · rw [List.mem_append, h.mem f hk, List.mem_append]
    constructor
    · rintro (h | h)
      · exact h
      · exact .inr h
    · exact .inl
  · rw [List.filter_append, h.hosts, extraRules_hosts, List.append_nil]

/-- Dropping empty lines does not matter. -/
theorem alike_nonempty (s : Bool) (bad : List Bytes) (pr : Bool) (ls : List Bytes) :
    SameMeaning s ((ls.filter jsTruthy).flatMap (readText bad pr)) (ls.flatMap (readText bad pr)) := by
  induction ls with
  | nil => exact .refl ..
  | cons l ls ih =>
    cases l with
    | cons x l =>
      rw [List.filter_cons_of_pos (by simp [jsTruthy]), List.flatMap_cons, List.flatMap_cons]
      exact (SameMeaning.refl ..).append ih
    | nil =>
      rw [List.filter_cons_of_neg (by simp [jsTruthy]), List.flatMap_cons]
      refine ih.trans ⟨fun f hk => ?_, ?_⟩
      · rw [List.mem_append]
        exact ⟨.inr, fun h => h.elim (fun h => absurd hk (readText_empty bad pr f h s)) id⟩
      · rw [List.filter_append]
        have : (readText bad pr []).filter (fun g => decide (HostRule s g)) = [] := by
          rw [List.filter_eq_nil_iff]
          intro f hf
          simpa using fun h : HostRule s f => readText_empty bad pr f hf s h.1
        rw [this]
        rfl

/-- What the preprocessed text means: the text and the extra rules. -/
theorem alike_sanitize (s : Bool) (bad : List Bytes) (pr : Bool) (input : Bytes) :
    SameMeaning s (readText bad pr (sanitizeABPInput input)) (readText bad pr input ++ extraRules bad pr) := by
  rw [readText_pieces bad pr (sanitizeABPInput input), C48_lines, List.flatMap_append, List.flatMap_map]
  simp only [readText_mapRule]
  rw [readText_pieces bad pr input]
  exact (alike_nonempty s bad pr _).append (.refl ..)

theorem alike_listURL (s : Bool) (bad : List Bytes) (pr : Bool) (body : Bytes) :
    SameMeaning s (readText bad pr (listURLText none body)) (readText bad pr body ++ extraRules bad pr) :=
  (alike_sanitize s bad pr _).trans (alike_extra_again (alike_sanitize s bad pr body))

theorem alike_listURLs (s : Bool) (bad : List Bytes) (pr : Bool) {bodies : List Bytes} (hne : bodies ≠ []) :
    SameMeaning s (readText bad pr (listURLsText none bodies)) (readText bad pr (jsJoin bodies) ++ extraRules bad pr) := by
  refine (alike_sanitize s bad pr _).trans ?_
  rw [readText_jsJoin bad pr hne, readText_jsJoin bad pr (by simpa using hne), List.flatMap_map]
  clear hne
  induction bodies with
  | nil => exact .refl ..
  | cons b bs ih =>
    rw [List.flatMap_cons, List.flatMap_cons, List.append_assoc, List.append_assoc]
    refine ((alike_sanitize s bad pr b).append ih).trans ⟨fun f hk => ?_, ?_⟩
    · simp only [List.mem_append]
      constructor
      · rintro ((h | h) | h | h) <;> simp [h]
      · rintro (h | h | h) <;> simp [h]
    · simp only [List.filter_append, extraRules_hosts, List.append_nil]

theorem history_parse {E : Env} {c c' : Client E} {fs : List Filter} (hist : History E c fs) {A : Bytes} {pr : Bool} (hA : 0 ∉ A)
    (h : c.parse A pr = .ok c') : ∃ as, History E c' (fs ++ as) ∧ as.map plain = readText E.bad pr A := by
  obtain ⟨n, b, h1, h2, _⟩ := (parse_ok_iff ..).1 h
  obtain ⟨as, hr, _⟩ := fill_reads h1 h2
  exact ⟨as, .parse hist hA h hr, reads_plain hr⟩

section
variable {E : Env} {c c1 c2 : Client E} {fs : List Filter} {url : Bytes} {dom : Option Bytes} {co : Mask}

theorem alike_texts (hist : History E c fs) {A B : Bytes} {pr : Bool} (hA : 0 ∉ A) (hB : 0 ∉ B)
    (h : ∀ s, SameMeaning s (readText E.bad pr A) (readText E.bad pr B))
    (h1 : c.parse A pr = .ok c1) (h2 : c.parse B pr = .ok c2)
    (hw : WebUrl url) (hl : 5 < url.length) (h0 : 0 ∉ url) (hroll : E.fp.rolls url)
    (hne : dom = none → ∀ s, NoEmptyExclusion E.bad s (fs ++ readText E.bad pr B))
    {o o' : Outcome E} (hq : c1.query url co dom = .ok o) (hq' : c2.query url co dom = .ok o') :
    o'.block = o.block := by
  obtain ⟨as, ha, ea⟩ := history_parse hist hA h1
  obtain ⟨bs, hb, eb⟩ := history_parse hist hB h2
  refine alike_query ha hb (fun s => ?_) ((parse_tags h2).trans (parse_tags h1).symm) hw hl h0 hroll (fun hd s => ?_) hq hq'
  · rw [List.map_append, List.map_append, ea, eb]
    have := (SameMeaning.refl s (fs.map plain)).append (h s)
    exact sameLists_hosts this.mem this.hosts
  · intro g hg hu ho dl hdl
    rcases List.mem_append.1 hg with hg | hg
    · exact hne hd s g (List.mem_append_left _ hg) hu ho dl hdl
    · have hB : NoEmptyExclusion E.bad s (readText E.bad pr B) :=
        fun g hg => hne hd s g (List.mem_append_right _ hg)
      have hA' : NoEmptyExclusion E.bad s (as.map plain) := by
        rw [ea]
        exact fun g hg hu => hB g (((h s).mem g hu.1).1 hg) hu
      exact (plain_keeping.noEmptyExclusion _ _ _).1 hA' g hg hu ho dl hdl

/-- the extra rules as a list -/
def extraText : Bytes := jsJoin extraConcatRules

theorem readText_extra (bad : List Bytes) (pr : Bool) (input : Bytes) :
    readText bad pr (input ++ 10 :: extraText) = readText bad pr input ++ extraRules bad pr := by
  rw [readText_append]
  congr 1
  exact readText_jsJoin bad pr (by decide)

/-- The extra rules exclude no domain. -/
theorem noEmptyExclusion_extra {bad : List Bytes} {pr s : Bool} {gs : List Filter} {input : Bytes}
    (h : NoEmptyExclusion bad s (gs ++ readText bad pr input)) :
    NoEmptyExclusion bad s (gs ++ readText bad pr (input ++ 10 :: extraText)) := by
  have e : extraConcatRules = [RuleText.line { anchor := .host, text := bs%"imasdk.googleapis.com/", options := some bs%"third-party" },
      RuleText.line { text := bs%"^ima3.js" }] := by decide
  have hx : ∀ f ∈ extraRules bad pr, f.domainList = none := by
    unfold extraRules
    rw [e]
    simp only [List.flatMap_cons, List.flatMap_nil, List.append_nil]
    rw [readText_rule bad pr (RuleText.wellFormed (by decide)), readText_rule bad pr (RuleText.wellFormed (by decide))]
    cases pr <;> decide +kernel
  rw [readText_extra, ← List.append_assoc]
  intro g hg hu ho dl hdl
  rcases List.mem_append.1 hg with hg | hg
  · exact h g hg hu ho dl hdl
  · rw [hx g hg] at hdl
    cases hdl

theorem mem_jsJoin {ls : List Bytes} {x : Byte} (h : x ∈ jsJoin ls) : x = 10 ∨ ∃ l ∈ ls, x ∈ l := by
  induction ls with
  | nil => cases h
  | cons l ls ih =>
    cases ls with
    | nil => exact .inr ⟨l, by simp, h⟩
    | cons m ls =>
      simp only [jsJoin, List.mem_append, List.mem_cons] at h
      rcases h with h | h | h
      · exact .inr ⟨l, by simp, h⟩
      · exact .inl h
      · rcases ih h with h | ⟨k, hk, h⟩
        · exact .inl h
        · exact .inr ⟨k, List.mem_cons_of_mem _ hk, h⟩

theorem mem_splitOn {sep : Byte} {s p : Bytes} {x : Byte} (hp : p ∈ splitOn sep s) (hx : x ∈ p) : x ∈ s := by
  induction s generalizing p with
  | nil => simp only [splitOn, List.mem_singleton] at hp; subst hp; cases hx
  | cons c s ih =>
    obtain ⟨q, qs, hq⟩ := List.exists_cons_of_ne_nil (splitOn_ne_nil sep s)
    by_cases hc : c = sep
    · subst hc
      rw [splitOn_cons_sep] at hp
      rcases List.mem_cons.1 hp with rfl | hp
      · cases hx
      · exact List.mem_cons_of_mem _ (ih hp hx)
    · rw [splitOn_cons_of_ne hc hq] at hp
      rw [hq] at ih
      rcases List.mem_cons.1 hp with rfl | hp
      · rcases List.mem_cons.1 hx with rfl | hx
        · simp
        · exact List.mem_cons_of_mem _ (ih (by simp) hx)
      · exact List.mem_cons_of_mem _ (ih (List.mem_cons_of_mem _ hp) hx)

theorem sanitize_no_nul {input : Bytes} (h : 0 ∉ input) : 0 ∉ sanitizeABPInput input := by
  intro hm
  unfold sanitizeABPInput at hm
  rcases mem_jsJoin hm with h1 | ⟨l, hl, h1⟩
  · cases h1
  · rcases List.mem_append.1 hl with hl | hl
    · obtain ⟨m, hm, rfl⟩ := List.mem_map.1 hl
      rw [jsSplit_eq] at hm
      by_cases hr : Rewritten m
      · rcases hr with rfl | rfl
        · exact absurd h1 (by decide)
        · exact absurd h1 (by decide)
      · rw [mapRule_eq hr] at h1
        exact h (mem_splitOn (List.mem_filter.1 hm).1 h1)
    · exact absurd h1 ((by decide : ∀ l ∈ extraConcatRules, 0 ∉ l) l hl)

theorem extra_no_nul {input : Bytes} (h : 0 ∉ input) : 0 ∉ input ++ 10 :: extraText := by
  simp only [List.mem_append, List.mem_cons, not_or]
  exact ⟨h, by decide, by decide⟩

theorem jsJoin_no_nul {ls : List Bytes} (h : ∀ l ∈ ls, 0 ∉ l) : 0 ∉ jsJoin ls := by
  intro hm
  rcases mem_jsJoin hm with h1 | ⟨l, hl, h1⟩
  · cases h1
  · exact h l hl h1

/-- **C48** for clients: loading the preprocessed text has the same verdicts as loading the text
itself followed by the extra rules.  (Without a page, unless a rule excludes the empty domain, as
`domain=~` does.) -/
theorem C48_verdicts (hist : History E c fs) {input : Bytes} (hi : 0 ∉ input) {keep : Bool}
    (h1 : c.parse (input ++ 10 :: extraText) keep = .ok c1) (h2 : c.parse (sanitizeABPInput input) keep = .ok c2)
    (hw : WebUrl url) (hl : 5 < url.length) (h0 : 0 ∉ url) (hroll : E.fp.rolls url)
    (hne : dom = none → ∀ s, NoEmptyExclusion E.bad s (fs ++ readText E.bad keep input))
    {o o' : Outcome E} (hq : c1.query url co dom = .ok o) (hq' : c2.query url co dom = .ok o') :
    o'.block = o.block :=
  (alike_texts hist (sanitize_no_nul hi) (extra_no_nul hi) (fun s => by rw [readText_extra]; exact alike_sanitize s ..)
    h2 h1 hw hl h0 hroll (fun hd s => noEmptyExclusion_extra (hne hd s)) hq' hq).symm

/-- **C48** for `makeAdBlockClientFromListURL` with one URL, whose text is preprocessed twice -/
theorem C48_list_url (hist : History E c fs) {body : Bytes} (hi : 0 ∉ body) {keep : Bool}
    (h1 : c.parse (body ++ 10 :: extraText) keep = .ok c1) (h2 : c.parse (listURLText none body) keep = .ok c2)
    (hw : WebUrl url) (hl : 5 < url.length) (h0 : 0 ∉ url) (hroll : E.fp.rolls url)
    (hne : dom = none → ∀ s, NoEmptyExclusion E.bad s (fs ++ readText E.bad keep body))
    {o o' : Outcome E} (hq : c1.query url co dom = .ok o) (hq' : c2.query url co dom = .ok o') :
    o'.block = o.block :=
  (alike_texts hist (sanitize_no_nul (sanitize_no_nul hi)) (extra_no_nul hi)
    (fun s => by rw [readText_extra]; exact alike_listURL s ..) h2 h1 hw hl h0 hroll (fun hd s => noEmptyExclusion_extra (hne hd s)) hq' hq).symm

/-- **C48** for `makeAdBlockClientFromListURL` with several URLs, whose texts are preprocessed one
by one and then together -/
theorem C48_list_urls (hist : History E c fs) {bodies : List Bytes} (hb : bodies ≠ []) (hi : ∀ b ∈ bodies, 0 ∉ b) {keep : Bool}
    (h1 : c.parse (jsJoin bodies ++ 10 :: extraText) keep = .ok c1) (h2 : c.parse (listURLsText none bodies) keep = .ok c2)
    (hw : WebUrl url) (hl : 5 < url.length) (h0 : 0 ∉ url) (hroll : E.fp.rolls url)
    (hne : dom = none → ∀ s, NoEmptyExclusion E.bad s (fs ++ readText E.bad keep (jsJoin bodies)))
    {o o' : Outcome E} (hq : c1.query url co dom = .ok o) (hq' : c2.query url co dom = .ok o') :
    o'.block = o.block := by
  refine (alike_texts hist (sanitize_no_nul (jsJoin_no_nul fun l hl => ?_)) (extra_no_nul (jsJoin_no_nul hi))
    (fun s => by rw [readText_extra]; exact alike_listURLs s _ _ hb) h2 h1 hw hl h0 hroll (fun hd s => noEmptyExclusion_extra (hne hd s)) hq' hq).symm
  obtain ⟨b, hb, rfl⟩ := List.mem_map.1 hl
  exact sanitize_no_nul (hi b hb)

end

/-- **C48** for `makeAdBlockClientFromString` and `makeAdBlockClientFromFilePath` with an array of
lists: the client is the one that has loaded the lists joined by line feeds, in order. -/
theorem C48_array_of_lists (E : Env) (keep : Bool) {texts : List Bytes} (hne : texts ≠ []) (c : Client E) :
    makeClientFromStrings E keep texts = .ok c ↔ (Client.fresh E).parse (jsJoin texts) keep = .ok c := by
  unfold makeClientFromStrings
  generalize Client.fresh E = c0
  induction texts generalizing c0 with
  | nil => exact absurd rfl hne
  | cons t ts ih =>
    rw [List.foldlM_cons]
    cases ts with
    | nil =>
      simp only [List.foldlM_nil, jsJoin]
      cases c0.parse t keep <;> exact Iff.rfl
    | cons u us =>
      rw [jsJoin.eq_3 _ _ (by simp), ← C19_piecewise c0 c t (jsJoin (u :: us)) keep (.inr rfl)]
      simp only [Res.bind_eq_ok]
      exact exists_congr fun c1 => and_congr_right fun _ => ih (by simp) c1

/-- two lists, of which the second undoes the first, given as an array -/
example : ∃ c : Client toyEnv, makeClientFromStrings toyEnv false [bs%"banner", bs%"@@banner"] = .ok c := by
  obtain ⟨c, h, -⟩ := loaded toyEnv [{ text := bs%"banner" }, { exception := true, text := bs%"banner" }]
    (by decide) (by decide +kernel) (by decide +kernel)
  exact ⟨c, (C48_array_of_lists toyEnv false (by simp) c).2 (by rw [← h]; congr 1)⟩

/-! ### examples -/

def extraHostRule : RuleText := { anchor := .host, text := bs%"imasdk.googleapis.com/", options := some bs%"third-party" }
def extraScriptRule : RuleText := { text := bs%"^ima3.js" }

/-- a text with a rule that is rewritten; both texts can be loaded and queried -/
example : ∃ (c1 c2 : Client toyEnv) (o o' : Outcome toyEnv),
    (Client.fresh toyEnv).parse (bs%"||imasdk.googleapis.com^$third-party\nbanner" ++ 10 :: extraText) false = .ok c1 ∧
    (Client.fresh toyEnv).parse (sanitizeABPInput bs%"||imasdk.googleapis.com^$third-party\nbanner") false = .ok c2 ∧
    c1.query bs%"http://imasdk.googleapis.com/" FOScript (some bs%"a.com") = .ok o ∧
    c2.query bs%"http://imasdk.googleapis.com/" FOScript (some bs%"a.com") = .ok o' ∧
    WebUrl bs%"http://imasdk.googleapis.com/" ∧ toyEnv.fp.rolls bs%"http://imasdk.googleapis.com/" := by
  obtain ⟨c1, h1, _, _, h4⟩ := loaded toyEnv [imaHostRule bs%"third-party", otherRule, extraHostRule, extraScriptRule]
    (by decide) (by decide +kernel) (by decide +kernel)
  obtain ⟨c2, h1', _, _, h4'⟩ := loaded toyEnv [imaHostRule bs%"third-party,explicitcancel", otherRule, extraHostRule, extraScriptRule]
    (by decide) (by decide +kernel) (by decide +kernel)
  obtain ⟨⟨o, ho⟩, -⟩ := h4 bs%"http://imasdk.googleapis.com/" FOScript (some bs%"a.com") (by decide)
  obtain ⟨⟨o', ho'⟩, -⟩ := h4' bs%"http://imasdk.googleapis.com/" FOScript (some bs%"a.com") (by decide)
  refine ⟨c1, c2, o, o', ?_, ?_, ho, ho', (webUrl_of_check (by decide +kernel)).1, trivial⟩
  · rw [← h1]; congr 1
  · rw [← h1']; congr 1

/-- rules as in `C53_behavioural_options`: a client which has loaded a rule, and one which has loaded
it with a further option -/
example : ∃ (c d : Client toyEnv) (fs gs : List Filter) (o o' : Outcome toyEnv),
    History toyEnv c fs ∧ History toyEnv d gs ∧ fs ≠ gs ∧ fs.map plain = gs.map plain ∧ d.tags = c.tags ∧
    c.query bs%"http://imasdk.googleapis.com/" FOScript (some bs%"a.com") = .ok o ∧
    d.query bs%"http://imasdk.googleapis.com/" FOScript (some bs%"a.com") = .ok o' := by
  obtain ⟨c1, _, h2, h3, h4⟩ := loaded toyEnv [imaHostRule bs%"third-party"]
    (by decide) (by decide +kernel) (by decide +kernel)
  obtain ⟨c2, _, h2', h3', h4'⟩ := loaded toyEnv [imaHostRule bs%"third-party,explicitcancel"]
    (by decide) (by decide +kernel) (by decide +kernel)
  obtain ⟨⟨o, ho⟩, -⟩ := h4 bs%"http://imasdk.googleapis.com/" FOScript (some bs%"a.com") (by decide)
  obtain ⟨⟨o', ho'⟩, -⟩ := h4' bs%"http://imasdk.googleapis.com/" FOScript (some bs%"a.com") (by decide)
  exact ⟨c1, c2, _, _, o, o', h2, h2', by decide +kernel, by decide +kernel, h3'.trans h3.symm, ho, ho'⟩

end AdBlock
