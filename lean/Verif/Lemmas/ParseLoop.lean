import Verif.Lemmas.Fingerprint
import Verif.Lemmas.Masks
/-! Helper lemmas on the parser of one line. -/
namespace AdBlock
open Spec

/-! #### options do not touch the other members -/

/-- `f` with the options of `g` -/
def Filter.withOptions (f g : Filter) : Filter :=
  { f with filterOption := g.filterOption, antiFilterOption := g.antiFilterOption,
           domainList := g.domainList, tag := g.tag }

theorem withOptions_parseOption (f g : Filter) (o : Bytes) :
    (f.withOptions g).parseOption o = f.withOptions (g.parseOption o) := by
  simp only [Filter.parseOption, Filter.withOptions]
  repeat' split
  all_goals rfl

theorem withOptions_parseOptionsLoop (f g : Filter) (cur o : Bytes) :
    (f.withOptions g).parseOptionsLoop cur o = f.withOptions (g.parseOptionsLoop cur o) := by
  induction o generalizing g cur with
  | nil => exact withOptions_parseOption f g cur
  | cons c o ih =>
    simp only [Filter.parseOptionsLoop]
    split
    · exact withOptions_parseOption f g cur
    · split
      · rw [withOptions_parseOption]; exact ih _ _
      · exact ih _ _

theorem parseOptions_frame {f : Filter} (h1 : f.domainList = none) (h2 : f.tag = []) (o : Bytes) :
    f.parseOptions o = f.withOptions (({} : Filter).parseOptions o) := by
  have e : ({ f with filterOption := 0, antiFilterOption := 0 } : Filter) =
      f.withOptions { ({} : Filter) with filterOption := 0, antiFilterOption := 0 } := by
    simp [Filter.withOptions, h1, h2]
  unfold Filter.parseOptions
  rw [e]
  exact withOptions_parseOptionsLoop _ _ _ _

/-! #### single steps of the loop -/

section steps
variable (line : Bytes) (t : Byte) (pr : Bool)

theorem loop_indent (ind rest : Bytes) (pos : Nat) (s : PLocals) (hs : s.st = .start)
    (hi : ∀ c ∈ ind, c = 32 ∨ c = 9) (hl : pos + ind.length ≤ 2047) :
    parseLoop line t pr (ind ++ rest) pos s = parseLoop line t pr rest (pos + ind.length)
      { s with ruleStart := s.ruleStart + ind.length, ruleEnd := s.ruleEnd + ind.length } := by
  induction ind generalizing pos s with
  | nil => simp
  | cons c ind ih =>
    simp only [List.length_cons] at hl
    have hp : ¬ pos ≥ kMaxLineLength - 1 := by simp [kMaxLineLength]; omega
    have hstep : parseLoop line t pr (c :: (ind ++ rest)) pos s =
        parseLoop line t pr (ind ++ rest) (pos + 1)
          { s with ruleStart := s.ruleStart + 1, ruleEnd := s.ruleEnd + 1 } := by
      rcases hi c (by simp) with rfl | rfl <;> simp [parseLoop, parseStep, parseChar, PLocals.bar, hp, hs]
    rw [List.cons_append, hstep,
      ih (pos + 1) { s with ruleStart := s.ruleStart + 1, ruleEnd := s.ruleEnd + 1 } hs
        (fun c hc => hi c (by simp [hc])) (by omega)]
    simp only [List.length_cons]
    congr 1
    · omega
    · simp only [PLocals.mk.injEq, true_and]; omega

theorem loop_at (p : Bytes) (pos : Nat) (s : PLocals) (hs : s.st.fresh = true) (hl : pos < 2047) :
    parseLoop line t pr (ch%'@' :: p) pos s =
      parseLoop line t pr p (pos + 1) { s with st := .oneAt, ruleEnd := s.ruleEnd + 1 } := by
  have hp : ¬ pos ≥ kMaxLineLength - 1 := by simp [kMaxLineLength]; omega
  have h1 : s.st ≠ .dataOnly := by intro h; simp [h, FPState.fresh] at hs
  have h2 : s.st ≠ .oneBar := by intro h; simp [h, FPState.fresh] at hs
  simp [parseLoop, parseStep, parseChar, PLocals.bar, hp, h1, h2, hs]

theorem loop_at2 (p : Bytes) (pos : Nat) (s : PLocals) (hs : s.st = .oneAt) (hl : pos < 2047) :
    parseLoop line t pr (ch%'@' :: p) pos s =
      parseLoop line t pr p (pos + 1) { s with
        st := .pastWhitespace, f := { s.f with filterType := FTException }, ruleEnd := s.ruleEnd + 1 } := by
  have hp : ¬ pos ≥ kMaxLineLength - 1 := by simp [kMaxLineLength]; omega
  simp [parseLoop, parseStep, parseChar, PLocals.bar, hp, hs, FPState.fresh]

theorem loop_bar (p : Bytes) (pos : Nat) (s : PLocals) (hs : s.st.fresh = true) (hl : pos < 2047) :
    parseLoop line t pr (ch%'|' :: p) pos s =
      parseLoop line t pr p (pos + 1) { s with st := .oneBar, ruleEnd := s.ruleEnd + 1 } := by
  have hp : ¬ pos ≥ kMaxLineLength - 1 := by simp [kMaxLineLength]; omega
  have h1 : s.st ≠ .dataOnly := by intro h; simp [h, FPState.fresh] at hs
  simp [parseLoop, parseStep, parseChar, PLocals.bar, hp, h1, hs]

theorem loop_bar2 (p : Bytes) (pos : Nat) (s : PLocals) (hs : s.st = .oneBar) (hl : pos < 2047) :
    parseLoop line t pr (ch%'|' :: p) pos s =
      (secondBar s p t) >>= fun s' => parseLoop line t pr p (pos + 1) s' := by
  have hp : ¬ pos ≥ kMaxLineLength - 1 := by simp [kMaxLineLength]; omega
  simp [parseLoop, parseStep, parseChar, PLocals.bar, hp, hs, FPState.fresh]

theorem loop_rightBar (p : Bytes) (pos : Nat) (s : PLocals) (hs : s.st = .data) (hl : pos < 2047) :
    parseLoop line t pr (ch%'|' :: p) pos s =
      parseLoop line t pr p (pos + 1) { s with f := s.f.addType FTRightAnchored, ruleEnd := s.ruleEnd + 1 } := by
  have hp : ¬ pos ≥ kMaxLineLength - 1 := by simp [kMaxLineLength]; omega
  simp [parseLoop, parseStep, parseChar, PLocals.bar, hp, hs, FPState.fresh]

/-- a single bar followed by something else -/
theorem loop_oneBar (c : Byte) (p : Bytes) (pos : Nat) (s : PLocals) (hs : s.st = .oneBar) (hc : c ≠ ch%'|') :
    parseLoop line t pr (c :: p) pos s =
      parseLoop line t pr (c :: p) pos { s with st := .data, f := s.f.addType FTLeftAnchored } ∨
    pos ≥ 2047 := by
  by_cases hp : pos ≥ kMaxLineLength - 1
  · exact .inr (by simpa [kMaxLineLength] using hp)
  · left
    have : parseStep line t pr c p s =
        parseStep line t pr c p { s with st := .data, f := s.f.addType FTLeftAnchored } := by
      simp [parseStep, PLocals.bar, hs, hc]
    simp only [parseLoop, hp, ↓reduceIte, this]

/-- an ordinary character in state `data` -/
theorem step_data_char (c : Byte) (p : Bytes) (s : PLocals) (hs : s.st = .data)
    (h1 : c ≠ ch%'|') (h2 : c ≠ ch%'$') (h3 : c = ch%'#' → p.head? ≠ some ch%'#' ∧ p.head? ≠ some ch%'@') :
    parseStep line t pr c p s = .ok (.one (s.push c)) := by
  have e : ({ s with st := .data } : PLocals) = s := by cases s; simp_all
  have hf : s.st.fresh = false := by rw [hs]; rfl
  have h4 : s.st ≠ .start := by rw [hs]; simp
  have h5 : s.st ≠ .oneAt := by rw [hs]; simp
  have hb : s.bar c = s := by simp [PLocals.bar, hs]
  unfold parseStep
  rw [if_neg (by rw [hs]; simp), hb]
  unfold parseChar
  rw [if_neg h1]
  simp only [hf, Bool.false_eq_true, if_false, h4, h5, h2, false_and]
  by_cases hh : c = ch%'#'
  · obtain ⟨n1, n2⟩ := h3 hh
    simp [hh, n1, n2, e]
  · simp [hh, e]

theorem loop_data_char (c : Byte) (p : Bytes) (pos : Nat) (s : PLocals) (hs : s.st = .data) (hl : pos < 2047)
    (h1 : c ≠ ch%'|') (h2 : c ≠ ch%'$') (h3 : c = ch%'#' → p.head? ≠ some ch%'#' ∧ p.head? ≠ some ch%'@') :
    parseLoop line t pr (c :: p) pos s = parseLoop line t pr p (pos + 1) (s.push c) := by
  have hp : ¬ pos ≥ kMaxLineLength - 1 := by simp [kMaxLineLength]; omega
  simp [parseLoop, hp, step_data_char line t pr c p s hs h1 h2 h3]

theorem loop_text (text rest : Bytes) (pos : Nat) (s : PLocals) (hs : s.st = .data)
    (hl : pos + text.length ≤ 2047)
    (hp : ∀ c ∈ text, c ≠ ch%'|' ∧ c ≠ ch%'$')
    (hh : ∀ a d b, text = a ++ ch%'#' :: d :: b → d ≠ ch%'#' ∧ d ≠ ch%'@')
    (hr : rest.head? ≠ some ch%'#' ∧ rest.head? ≠ some ch%'@') :
    parseLoop line t pr (text ++ rest) pos s = parseLoop line t pr rest (pos + text.length)
      { s with data := s.data ++ text, ruleEnd := s.ruleEnd + text.length } := by
  induction text generalizing pos s with
  | nil => simp
  | cons c text ih =>
    simp only [List.length_cons] at hl
    rw [List.cons_append, loop_data_char line t pr c (text ++ rest) pos s hs (by omega)
      (hp c (by simp)).1 (hp c (by simp)).2 ?_]
    · rw [ih (pos + 1) (s.push c) hs (by omega) (fun c hc => hp c (by simp [hc]))
        (fun a d b e => hh (c :: a) d b (by simp [e]))]
      simp only [PLocals.push, List.length_cons]
      congr 1
      · omega
      · simp only [PLocals.mk.injEq, true_and, List.append_assoc, List.cons_append, List.nil_append]
        omega
    · rintro rfl
      cases text with
      | nil => simpa using hr
      | cons d text =>
        have := hh [] d text (by simp)
        simpa using this

/-- the first character of a rule without anchor -/
theorem loop_first_char (c : Byte) (p : Bytes) (pos : Nat) (s : PLocals) (hs : s.st.fresh = true) (hl : pos < 2047)
    (h1 : c ≠ ch%'|' ∧ c ≠ ch%'$') (h2 : c ∉ bs%"@![# " ∧ c ≠ 9 ∧ c ≠ 10 ∧ c ≠ 13)
    (h3 : c = ch%'/' → line.getLast? ≠ some ch%'/') :
    parseLoop line t pr (c :: p) pos s = parseLoop line t pr p (pos + 1) ({ s with st := .data }.push c) := by
  have hp : ¬ pos ≥ kMaxLineLength - 1 := by simp [kMaxLineLength]; omega
  have s1 : s.st ≠ .dataOnly := by intro h; simp [h, FPState.fresh] at hs
  have s2 : s.st ≠ .oneBar := by intro h; simp [h, FPState.fresh] at hs
  simp only [List.mem_cons, List.not_mem_nil, or_false, not_or] at h2
  obtain ⟨⟨a1, a2, a3, a4, a5⟩, a6, a7, a8⟩ := h2
  conv => lhs; unfold parseLoop
  simp only [parseStep, parseChar, PLocals.bar, hp, ↓reduceIte, s1, s2, false_and, h1, a1, a2, a3, a4, a5, a6, a7, a8, or_self]
  by_cases hsl : c = ch%'/'
  · have hreg : regexFilter line pr s = none := by
      have := h3 hsl
      unfold regexFilter
      have hne : (line.getD (line.length - 1) 0 == ch%'/' && decide (line.length > 1)) = false := by
        rw [Bool.and_eq_false_iff]
        left
        rw [List.getLast?_eq_getElem?] at this
        simp only [List.getD_eq_getElem?_getD, beq_eq_false_iff_ne, ne_eq]
        intro h
        cases hg : line[line.length - 1]? with
        | none => simp [hg] at h
        | some x => simp [hg] at h; exact this (by rw [hg, h])
      rw [hne]; rfl
    simp [hsl, hs, hreg]
  · simp [hsl]

end steps

/-! #### after the loop -/

/-- the rule whose text has been read completely -/
def PLocals.result (s : PLocals) (line : Bytes) (preserve : Bool) : Filter :=
  { s.f with
    ruleDefinition := if preserve then some ((line.drop s.ruleStart).take (s.ruleEnd - s.ruleStart))
      else s.f.ruleDefinition
    data := some (cstr s.data) }

/-- entering a rule into the indexes -/
def finishWith (bad : List Bytes) (full : Bool) (f : Filter) : Res (Filter × Effect) :=
  if f.filterType = FTElementHiding then pure (f, .none)
  else if f.filterType = FTElementHidingException then pure (f, .none)
  else if full && has f.filterType FTException && has f.filterType FTHostOnly then
    pure (f, .addHostException)
  else if full && has f.filterType FTHostOnly then pure (f, .addHost)
  else (getFingerprint bad f) >>= fun fp =>
    match fp with
    | none => pure (f, .none)
    | some fp =>
      if full && has f.filterType FTException then pure (f, .addExceptionFingerprint fp)
      else if full then pure (f, .addFingerprint fp)
      else pure (f, .none)

theorem finishFilter_eq (bad : List Bytes) (line : Bytes) (preserve full : Bool) {s : PLocals}
    (h : s.st ≠ .start) :
    finishFilter bad line preserve full s = finishWith bad full (s.result line preserve) := by
  unfold finishFilter
  simp only [h, ↓reduceIte]
  cases preserve <;> rfl

end AdBlock
