import Verif.Lemmas.ParseLoop
/-! The parser on the text of a rule. -/
namespace AdBlock
open Spec

theorem takeWhile_split (text : Bytes) :
    ∃ rest, text = (text.takeWhile fun c => decide (¬ IsSep c)) ++ rest ∧
      (rest = [] ∨ ∃ c r, rest = c :: r ∧ IsSep c) ∧
      ∀ c ∈ text.takeWhile (fun c => decide (¬ IsSep c)), ¬ IsSep c := by
  refine ⟨text.dropWhile fun c => decide (¬ IsSep c), List.takeWhile_append_dropWhile.symm, ?_, ?_⟩
  · cases h : text.dropWhile fun c => decide (¬ IsSep c) with
    | nil => exact .inl rfl
    | cons c r =>
      refine .inr ⟨c, r, rfl, ?_⟩
      have := List.head?_dropWhile_not (fun c => decide (¬ IsSep c)) text
      rw [h] at this
      simpa using this
  · intro c hc
    have := List.all_takeWhile (l := text) (p := fun c => decide (¬ IsSep c))
    have := List.all_eq_true.1 this c hc
    simpa using this

theorem barHost_eq (p : Bytes) : anchoredHost p = barHost p := by
  obtain ⟨rest, he, hr, hns⟩ := takeWhile_split p
  unfold barHost
  generalize p.takeWhile (fun c => decide (¬ IsSep c)) = h at he hns
  subst he
  have hf := findFirstSeparatorChar_spec hns hr
  unfold anchoredHost
  simp only [hf]
  rcases List.eq_nil_or_concat h with rfl | ⟨l, a, rfl⟩
  · simp
  · simp only [List.concat_eq_append, List.length_append, List.length_cons, List.length_nil, List.getLast?_concat, List.dropLast_concat,
      Option.some.injEq]
    have hg : ((l ++ [a] ++ rest).getD (l.length + (0 + 1) - 1) 0) = a := by simp [List.getD_eq_getElem?_getD]
    rw [hg]
    by_cases ha : a = ch%'|'
    · rw [if_pos ha, if_pos (by simp [ha])]
      simp
    · rw [if_neg ha, if_neg (by simp [ha])]
      exact List.take_left' (by simp)

/-- the filter built up to the text -/
def Spec.RuleText.core (r : RuleText) : Filter :=
  { filterType := (if r.exception then FTException else 0) |||
      r.anchor.mask |||
      (if r.HostOnly then FTHostOnly else 0)
    host := if r.anchor = .host then some r.hostPart else none }

/-- the filter without text -/
def Spec.RuleText.bare (r : RuleText) : Filter :=
  { filterType := r.kind
    filterOption := r.opts.filterOption
    antiFilterOption := r.opts.antiFilterOption
    domainList := r.opts.domainList
    tag := r.opts.tag
    host := if r.anchor = .host then some r.hostPart else none }

theorem withOptions_core (r : RuleText) :
    (if r.rightBar then r.core.addType FTRightAnchored else r.core).withOptions r.opts = r.bare := by
  have key : ∀ (a b c d : Mask), a ||| b ||| d ||| c = a ||| b ||| c ||| d := by
    intro a b c d
    rw [BitVec.or_assoc (a ||| b) d c, BitVec.or_comm d c, ← BitVec.or_assoc]
  by_cases hb : r.rightBar = true
  · simp [hb, Filter.withOptions, RuleText.core, RuleText.bare, RuleText.kind, Filter.addType, key]
  · simp [hb, Filter.withOptions, RuleText.core, RuleText.bare, RuleText.kind]

/-- the end of the line -/
theorem loop_close {r : RuleText} (hopts : ∀ o, r.options = some o → (∀ c ∈ o, c ≠ 0 ∧ c ≠ 10 ∧ c ≠ 13) ∧ o.head? ≠ some ch%'$')
    (t : Byte) (pr : Bool) (pos : Nat) (s : PLocals) (hs : s.st = .data ∨ s.st = .pastWhitespace ∨ s.st = .oneAt ∨ s.st = .oneBar ∧ r.options = none)
    (hf : s.f = (if r.rightBar then r.core.addType FTRightAnchored else r.core)) (he : s.ruleEnd = pos)
    (hd : r.line.drop pos = RuleText.optionText r.options) (hl : pos + (RuleText.optionText r.options).length = r.line.length)
    (hshort : r.Short) :
    parseLoop r.line t pr (RuleText.optionText r.options) pos s = .ok (.fin { s with f := r.bare, ruleEnd := r.line.length }) := by
  have hw' := withOptions_core r
  unfold RuleText.Short at hshort
  cases ho : r.options with
  | none =>
    have hopts : r.opts = {} := by simp [RuleText.opts, ho]
    simp only [ho, RuleText.optionText, List.length_nil, Nat.add_zero] at hl
    have : s.f = r.bare := by
      rw [hf, ← hw', hopts]
      cases r.rightBar <;> rfl
    simp only [RuleText.optionText, parseLoop, Res.ok.injEq, LoopOut.fin.injEq]
    cases s
    simp_all
  | some o =>
    have hopts' : r.opts = ({} : Filter).parseOptions o := by simp [RuleText.opts, ho]
    simp only [ho, RuleText.optionText, List.length_cons, Option.getD_some] at hl hd hshort
    obtain ⟨hp, hh⟩ := hopts o ho
    have hs' : s.st = .data ∨ s.st = .pastWhitespace ∨ s.st = .oneAt := by
      rcases hs with h | h | h | h
      · exact .inl h
      · exact .inr (.inl h)
      · exact .inr (.inr h)
      · rw [ho] at h; cases h.2
    have hstep : parseLoop r.line t pr (ch%'$' :: o) pos s = .ok (.fin (s.dollar r.line o)) := by
      have hp : ¬ pos ≥ kMaxLineLength - 1 := by simp [kMaxLineLength]; omega
      rcases hs' with hs | hs | hs <;> simp [parseLoop, parseStep, parseChar, PLocals.bar, hp, hs, hh]
    rw [RuleText.optionText, hstep]
    have htw : ((r.line.drop s.ruleEnd).takeWhile fun c => c != 0 && !isEndOfLine c).length = o.length + 1 := by
      rw [he, hd]
      have : (ch%'$' :: o).takeWhile (fun c => c != 0 && !isEndOfLine c) = ch%'$' :: o := by
        rw [← List.append_nil (ch%'$' :: o), List.takeWhile_append_of_pos]
        · simp
        intro c hc
        rcases List.mem_cons.1 hc with rfl | hc
        · decide
        · have := hp c hc
          simp [isEndOfLine, this]
      rw [this]; rfl
    have hfr : s.f.parseOptions o = r.bare := by
      rw [parseOptions_frame ?_ ?_, ← hopts', hf, hw']
      · rw [hf]; cases r.rightBar <;> rfl
      · rw [hf]; cases r.rightBar <;> rfl
    simp only [PLocals.dollar, htw, hfr, Res.ok.injEq, LoopOut.fin.injEq, PLocals.mk.injEq, true_and]
    omega

/-! #### rules written in an unusual way -/

theorem takeWhile_append_stop {p : Byte → Bool} {c : Byte} (hc : p c = false) (a x : Bytes) :
    (a ++ c :: x).takeWhile p = a.takeWhile p := by
  induction a with
  | nil => simp [hc]
  | cons d a ih =>
    simp only [List.cons_append, List.takeWhile_cons]
    split
    · rw [ih]
    · rfl

theorem barHost_append {p rest : Bytes} (h : rest = [] ∨ ∃ c q, rest = c :: q ∧ IsSep c) : barHost (p ++ rest) = barHost p := by
  rcases h with rfl | ⟨c, q, rfl, hc⟩
  · rw [List.append_nil]
  · unfold barHost
    rw [takeWhile_append_stop (by simp [hc])]

theorem optionText_sep (o : Option Bytes) : RuleText.optionText o = [] ∨ ∃ c q, RuleText.optionText o = c :: q ∧ IsSep c := by
  cases o with
  | none => exact .inl rfl
  | some o => exact .inr ⟨_, _, rfl, by decide⟩

theorem lead_kept {a kept : Bytes} (h : Lead a kept) : ∀ c ∈ kept, c ∈ a := by
  induction h with
  | blanks => intro c hc; cases hc
  | ats _ _ _ ih =>
    intro c hc
    simp only [List.mem_append, List.mem_cons] at hc ⊢
    rcases hc with (hc | hc) | hc
    · exact .inl (.inl (ih c hc))
    · exact .inl (.inr (.inr hc))
    · exact .inr (.inr hc)

theorem lead_length {a kept : Bytes} (h : Lead a kept) : kept.length ≤ a.length := by
  induction h with
  | blanks => simp
  | ats _ _ _ ih => simp only [List.length_append, List.length_cons]; omega

section
variable (line : Bytes) (t : Byte) (pr : Bool)

/-- characters that are kept without changing the state -/
theorem loop_keep {st : FPState} {R : Byte → Prop}
    (h : ∀ c p s, R c → s.st = st → parseStep line t pr c p s = .ok (.one (s.push c))) (mid rest : Bytes) (pos : Nat) (s : PLocals)
    (hs : s.st = st) (hm : ∀ c ∈ mid, R c) (hl : pos + mid.length ≤ 2047) :
    parseLoop line t pr (mid ++ rest) pos s = parseLoop line t pr rest (pos + mid.length)
      { s with data := s.data ++ mid, ruleEnd := s.ruleEnd + mid.length } := by
  induction mid generalizing pos s with
  | nil => simp
  | cons c mid ih =>
    simp only [List.length_cons] at hl
    have hp : ¬ pos ≥ kMaxLineLength - 1 := by simp [kMaxLineLength]; omega
    rw [List.cons_append]
    conv => lhs; unfold parseLoop
    rw [if_neg hp, h c _ s (hm c (by simp)) hs, Res.bind_ok]
    simp only
    rw [ih (pos + 1) (s.push c) hs (fun c hc => hm c (by simp [hc])) (by omega)]
    simp only [PLocals.push, List.length_cons]
    congr 1
    · omega
    · simp only [PLocals.mk.injEq, true_and, List.append_assoc, List.cons_append, List.nil_append]
      omega

theorem step_oneAt (c : Byte) (p : Bytes) (s : PLocals) (hc : c ∈ bs%"![/ \t") (hs : s.st = .oneAt) :
    parseStep line t pr c p s = .ok (.one (s.push c)) := by
  simp only [List.mem_cons, List.not_mem_nil, or_false] at hc
  rcases hc with rfl | rfl | rfl | rfl | rfl <;> simp [parseStep, parseChar, PLocals.bar, hs, FPState.fresh]

theorem step_past (c : Byte) (p : Bytes) (s : PLocals) (hc : c = 32 ∨ c = 9) (hs : s.st = .pastWhitespace) :
    parseStep line t pr c p s = .ok (.one (s.push c)) := by
  rcases hc with rfl | rfl <;> simp [parseStep, parseChar, PLocals.bar, hs]

def isBlank (c : Byte) : Bool := c == 32 || c == 9

/-- the state behind a lead -/
def leadState (a kept : Bytes) : PLocals where
  st := if ch%'@' ∈ a then .pastWhitespace else .start
  f := { filterType := if ch%'@' ∈ a then FTException else 0 }
  data := kept
  ruleStart := (a.takeWhile isBlank).length
  ruleEnd := a.length

theorem leadState_fresh (a kept : Bytes) : (leadState a kept).st.fresh = true := by
  unfold leadState
  simp only
  split <;> rfl

theorem loop_lead {a kept : Bytes} (h : Lead a kept) (rest : Bytes) (hl : a.length ≤ 2047) :
    parseLoop line t pr (a ++ rest) 0 {} = parseLoop line t pr rest a.length (leadState a kept) := by
  induction h generalizing rest with
  | @blanks ws hw =>
    have h1 : ch%'@' ∉ ws := fun h => by rcases hw _ h with h | h <;> cases h
    have h2 : ws.takeWhile isBlank = ws := by
      have := List.takeWhile_append_of_pos (p := isBlank) (l₁ := ws) (l₂ := []) (fun c hc => by
        rcases hw c hc with rfl | rfl <;> rfl)
      simpa using this
    rw [loop_indent line t pr ws rest 0 {} rfl hw (by omega)]
    simp [leadState, h1, h2]
  | @ats a kept mid tail _ hm ht ih =>
    simp only [List.length_append, List.length_cons] at hl
    rw [List.append_assoc, List.append_assoc, ih _ (by omega), List.cons_append,
      loop_at line t pr _ _ _ (leadState_fresh _ _) (by omega),
      loop_keep line t pr (step_oneAt line t pr) mid _ _ _ rfl hm (by omega), List.cons_append,
      loop_at2 line t pr _ _ _ rfl (by omega),
      loop_keep line t pr (step_past line t pr) tail _ _ _ rfl ht (by omega)]
    have e : a ++ ch%'@' :: mid ++ ch%'@' :: tail = a ++ ch%'@' :: (mid ++ ch%'@' :: tail) := by simp
    simp only [leadState, e, takeWhile_append_stop (p := isBlank) (c := ch%'@') rfl]
    simp only [List.mem_append, List.mem_cons, true_or, or_true, if_true, List.length_append, List.length_cons, List.append_assoc]
    congr 1
    · omega
    · simp only [PLocals.mk.injEq, true_and]; omega

/-- the text as it is written -/
theorem loop_raw {raw rest : Bytes} (h : RunsOn raw rest) (pos : Nat) (s : PLocals) (hs : s.st = .data) (hl : pos + raw.length ≤ 2047) :
    parseLoop line t pr (raw ++ rest) pos s = parseLoop line t pr rest (pos + raw.length)
      { s with f := if ch%'|' ∈ raw then s.f.addType FTRightAnchored else s.f
               data := s.data ++ raw.filter (· ≠ ch%'|'), ruleEnd := s.ruleEnd + raw.length } := by
  induction raw generalizing pos s with
  | nil => simp
  | cons c raw ih =>
    simp only [List.length_cons] at hl
    have h' : RunsOn raw rest := ⟨fun h' => h.1 (by simp [h']), fun x y e => h.2 (c :: x) y (by simp [e])⟩
    rw [List.cons_append]
    by_cases hc : c = ch%'|'
    · subst hc
      rw [loop_rightBar line t pr _ _ _ hs (by omega), ih h' _ _ (by simpa using hs) (by omega)]
      have e : (if ch%'|' ∈ raw then (s.f.addType FTRightAnchored).addType FTRightAnchored else s.f.addType FTRightAnchored) =
          s.f.addType FTRightAnchored := by
        split
        · simp [Filter.addType, BitVec.or_assoc]
        · rfl
      simp only [e, List.mem_cons, true_or, if_true, List.length_cons]
      congr 1
      · omega
      · simp only [PLocals.mk.injEq, true_and]
        refine ⟨by simp, by omega⟩
    · rw [loop_data_char line t pr c _ pos s hs (by omega) hc (fun e => h.1 (by simp [e])) (fun e => h.2 [] raw (by simp [e])),
        ih h' _ _ (by simpa [PLocals.push] using hs) (by omega)]
      have e : (ch%'|' ∈ c :: raw) = (ch%'|' ∈ raw) := by simp [Ne.symm hc]
      simp only [PLocals.push, e, List.length_cons]
      congr 1
      · omega
      · simp only [PLocals.mk.injEq, true_and]
        refine ⟨by simp [hc], by omega⟩

end

/-- is the rule host only? -/
theorem hostOnlyCheck_odd {r : RuleText} {w : Writing} (ho : r.odd = some w) (hw : r.Odd w) {t : Byte} (ht : t = 0 ∨ t = 10 ∨ t = 13)
    (ha : r.anchor = .host) :
    hostOnlyCheck (w.raw ++ RuleText.optionText r.options) t (barHost w.raw).length = .ok (decide r.HostOnly) := by
  have hh : r.hostPart = barHost w.raw := by unfold RuleText.hostPart; rw [ho]
  have hwr : r.written = w.raw := by unfold RuleText.written; rw [ho]
  have hO : r.HostOnly ↔ w.raw = barHost w.raw ∨ w.raw = barHost w.raw ++ bs%"^" := by
    unfold RuleText.HostOnly
    rw [hh, hwr, ho]
    simp [ha]
  suffices h : ∃ b, hostOnlyCheck (w.raw ++ RuleText.optionText r.options) t (barHost w.raw).length = .ok b ∧ (b = true ↔ r.HostOnly) by
    obtain ⟨b, h1, h2⟩ := h
    rw [h1, Res.ok.injEq]
    cases b <;> simp_all
  rw [hO]
  clear hO hh
  obtain ⟨q, hq⟩ : ∃ q, w.raw = barHost w.raw ++ q := by
    have : barHost w.raw <+: w.raw := by
      unfold barHost
      split
      · exact (List.dropLast_prefix _).trans (List.takeWhile_prefix _)
      · exact List.takeWhile_prefix _
    exact ⟨this.choose, this.choose_spec.symm⟩
  have hclean : ∀ c ∈ q, c ≠ 0 ∧ c ≠ 10 ∧ c ≠ 13 ∧ c ≠ ch%'$' := by
    intro c hc
    have hm : c ∈ w.raw := by rw [hq]; simp [hc]
    have hm' : c ∈ r.line := by unfold RuleText.line RuleText.body; rw [ho]; simp [hm]
    have := hw.clean c hm'
    exact ⟨this.1, this.2.1, this.2.2, fun e => hw.runs.1 (e ▸ hm)⟩
  generalize barHost w.raw = h at hq
  rw [hq]
  have hends : ∀ c ∈ q, endsHost c = false := by
    intro c hc
    have := hclean c hc
    simp [endsHost, isEndOfLine, this]
  obtain ⟨d, q', hd, hd1, hd2⟩ : ∃ d q', RuleText.optionText r.options ++ [t] = d :: q' ∧ endsHost d = true ∧ d ≠ ch%'^' := by
    cases r.options with
    | none => exact ⟨t, [], rfl, by rcases ht with rfl | rfl | rfl <;> decide, by rcases ht with rfl | rfl | rfl <;> decide⟩
    | some o => exact ⟨ch%'$', o ++ [t], rfl, by decide, by decide⟩
  unfold hostOnlyCheck
  rw [List.append_assoc, List.append_assoc, hd]
  cases q with
  | nil =>
    rw [List.nil_append, rd_append_length]
    exact ⟨_, by simp [hd2]; rfl, by simp [hd1]⟩
  | cons c q =>
    rw [List.cons_append, rd_append_length]
    by_cases hc : c = ch%'^'
    · subst hc
      have hidx : rd (h ++ (94 :: (q ++ d :: q'))) (h.length + 1) = rd (q ++ d :: q') 0 := by
        simp only [rd]
        rw [List.getElem?_append_right (by omega)]
        simp
      cases q with
      | nil =>
        rw [List.nil_append] at hidx
        exact ⟨true, by simp [hidx, hd1], by simp⟩
      | cons e q =>
        have := hends e (by simp)
        rw [List.cons_append] at hidx
        exact ⟨false, by simp [hidx, this, show endsHost 94 = false from rfl], by simp⟩
    · have := hends c (by simp)
      exact ⟨false, by simp [hc, this], by simp [hc]⟩

/-- a character that starts the text -/
theorem loop_enter (line : Bytes) (t : Byte) (pr : Bool) (c : Byte) (p : Bytes) (pos : Nat) (s : PLocals)
    (h : (s.st.fresh = true ∧ c ∉ bs%"|@![ \t" ∧ (c = ch%'#' → p.head? ≠ some 32) ∧ (c = ch%'/' → regexFilter line pr s = none)) ∨
      s.st = .oneAt ∧ c ∉ bs%"![/ \t@") (hc : c ≠ 10 ∧ c ≠ 13 ∧ c ≠ ch%'$')
    (hm : c = ch%'#' → p.head? ≠ some ch%'#' ∧ p.head? ≠ some ch%'@') :
    parseLoop line t pr (c :: p) pos s = parseLoop line t pr (c :: p) pos { s with st := .data } := by
  have hstep : parseStep line t pr c p s = parseStep line t pr c p { s with st := .data } := by
    obtain ⟨c1, c2, c3⟩ := hc
    rcases h with ⟨hs, h1, h2, h3⟩ | ⟨hs, h1⟩
    · have s1 : s.st ≠ .dataOnly := by intro h; simp [h, FPState.fresh] at hs
      have s2 : s.st ≠ .oneBar := by intro h; simp [h, FPState.fresh] at hs
      simp only [List.mem_cons, List.not_mem_nil, or_false, not_or] at h1
      obtain ⟨a1, a2, a3, a4, a5, a6⟩ := h1
      unfold parseStep
      rw [if_neg s1, if_neg (by simp)]
      simp only [PLocals.bar, s2, false_and, if_false, reduceCtorEq]
      unfold parseChar
      simp only [a1, a2, a3, a4, a5, a6, c1, c2, c3, if_false, or_self]
      by_cases hsl : c = ch%'/'
      · rw [if_pos hsl, if_pos hs, h3 hsl]
        simp [hsl, FPState.fresh, PLocals.push]
      · by_cases hh : c = ch%'#'
        · have hne : ¬ (s.st.fresh = true ∧ p.head? = some 32) := fun h => h2 hh h.2
          simp only [hsl, hh, if_false, if_true, if_neg hne]
          have hm := hm hh
          simp [FPState.fresh, PLocals.push, hm]
        · simp [hsl, hh, PLocals.push]
    · simp only [List.mem_cons, List.not_mem_nil, or_false, not_or] at h1
      obtain ⟨a1, a2, a3, a4, a5, a6⟩ := h1
      unfold parseStep
      rw [if_neg (by rw [hs]; simp), if_neg (by simp)]
      simp only [PLocals.bar, hs, false_and, if_false, reduceCtorEq]
      unfold parseChar
      simp only [a1, a2, a3, a4, a5, a6, c1, c2, c3, if_false, or_self]
      by_cases hh : c = ch%'#'
      · have hm := hm hh
        simp [hh, hs, FPState.fresh, PLocals.push, hm]
      · by_cases hb : c = ch%'|' <;> simp [hb, hh, hs, FPState.fresh, PLocals.push]
  conv => lhs; unfold parseLoop
  conv => rhs; unfold parseLoop
  rw [hstep]

theorem regexFilter_none {line : Bytes} {pr : Bool} {s : PLocals} (h : ¬ (line.getLast? = some ch%'/' ∧ 1 < line.length)) :
    regexFilter line pr s = none := by
  unfold regexFilter
  rw [if_neg]
  intro h'
  simp only [Bool.and_eq_true, beq_iff_eq, decide_eq_true_eq] at h'
  refine h ⟨?_, h'.2⟩
  rw [List.getLast?_eq_getElem?]
  have := h'.1
  rw [List.getD_eq_getElem?_getD] at this
  cases hg : line[line.length - 1]? with
  | none => simp [hg] at this
  | some x => simp [hg] at this; rw [this]

theorem odd_line {r : RuleText} {w : Writing} (ho : r.odd = some w) :
    r.line = r.indent ++ w.lead ++ r.anchor.mark ++ w.raw ++ RuleText.optionText r.options := by
  unfold RuleText.line RuleText.body
  rw [ho]
  simp

theorem odd_opts {r : RuleText} {w : Writing} (ho : r.odd = some w) (hw : r.Odd w) :
    ∀ o, r.options = some o → (∀ c ∈ o, c ≠ 0 ∧ c ≠ 10 ∧ c ≠ 13) ∧ o.head? ≠ some ch%'$' := by
  intro o h
  refine ⟨fun c hc => hw.clean c ?_, hw.opts o h⟩
  rw [odd_line ho, h]
  simp [RuleText.optionText, hc]

/-- the loop on a rule written in an unusual way -/
theorem loop_odd {r : RuleText} {w : Writing} (ho : r.odd = some w) (hw : r.Odd w) {t : Byte} (ht : t = 0 ∨ t = 10 ∨ t = 13) (pr : Bool) :
    ∃ st, st ≠ .start ∧ parseLoop r.line t pr r.line 0 {} =
      .ok (.fin { st := st, f := r.bare, data := r.text, ruleStart := r.indent.length, ruleEnd := r.line.length }) := by
  obtain ⟨kept, hop, htext⟩ := hw.opening
  have hline := odd_line ho
  have hpre : r.line.length = (r.indent ++ w.lead ++ r.anchor.mark ++ w.raw).length + (RuleText.optionText r.options).length := by
    rw [hline, List.length_append]
  have hshort : (r.indent ++ w.lead ++ r.anchor.mark ++ w.raw).length + (if r.options = none then 0 else 1) ≤ 2047 := by
    have := hw.short
    unfold RuleText.Short at this
    cases hopt : r.options with
    | none => rw [hpre, hopt] at this; simpa [RuleText.optionText] using this
    | some o =>
      rw [hpre, hopt] at this
      simp only [RuleText.optionText, List.length_cons, Option.getD_some] at this
      rw [if_neg (by simp)]
      omega
  have hnone : ∀ c, r.indent.head? = some c ∨ c ∈ r.indent → isBlank c = true := by
    intro c hc
    have : c ∈ r.indent := by rcases hc with h | h; exact List.mem_of_head? h; exact h
    rcases hw.indent c this with rfl | rfl <;> rfl
  have hblanks : ∀ x : Bytes, (∀ c ∈ x.head?, c ≠ 32 ∧ c ≠ 9) → ((r.indent ++ x).takeWhile isBlank).length = r.indent.length := by
    intro x hx
    rw [List.takeWhile_append_of_pos (fun c hc => hnone c (.inr hc))]
    cases x with
    | nil => simp
    | cons c x =>
      have := hx c rfl
      simp [isBlank, this]
  have hat : ∀ x : Bytes, ch%'@' ∈ r.indent ++ x ↔ ch%'@' ∈ x := by
    intro x
    rw [List.mem_append]
    refine ⟨fun h => h.resolve_left fun h => ?_, .inr⟩
    rcases hw.indent _ h with h | h <;> cases h
  have hbar : (if r.rightBar then r.core.addType FTRightAnchored else r.core) =
      (if ch%'|' ∈ w.raw then r.core.addType FTRightAnchored else r.core) := by
    rw [hw.bar]; simp
  have hclose : ∀ (pos : Nat) (s : PLocals), parseLoop r.line t pr r.line 0 {} = parseLoop r.line t pr (RuleText.optionText r.options) pos s →
      s.st = .data ∨ s.st = .pastWhitespace ∨ s.st = .oneAt ∨ s.st = .oneBar ∧ r.options = none →
      s.f = (if ch%'|' ∈ w.raw then r.core.addType FTRightAnchored else r.core) → s.data = r.text → s.ruleStart = r.indent.length →
      s.ruleEnd = pos → pos = (r.indent ++ w.lead ++ r.anchor.mark ++ w.raw).length →
      ∃ st, st ≠ .start ∧ parseLoop r.line t pr r.line 0 {} =
        .ok (.fin { st := st, f := r.bare, data := r.text, ruleStart := r.indent.length, ruleEnd := r.line.length }) := by
    intro pos s h hs hf hd hst he hp
    refine ⟨s.st, ?_, ?_⟩
    · rcases hs with h | h | h | ⟨h, -⟩ <;> rw [h] <;> simp
    · rw [h, loop_close (odd_opts ho hw) t pr pos s hs (by rw [hbar]; exact hf) he
        (by rw [hp, hline]; exact List.drop_left) (by rw [hp]; exact hpre.symm) hw.short, ← hd, ← hst]
  have hraw := fun pos s hs hl => loop_raw r.line t pr hw.runs pos s hs hl
  generalize hex : r.exception = ex at hop
  simp only [List.length_append] at hshort
  have hcore : r.anchor ≠ .host → r.core = { filterType := (if ex then FTException else 0) ||| r.anchor.mask } := by
    intro h
    have : ¬ r.HostOnly := fun h' => h h'.1
    simp [RuleText.core, this, h, hex]
  cases hop with
  | host hl ha =>
    rw [ha] at hline hshort
    simp only [Anchor.mark, List.length_cons, List.length_nil] at hline hshort
    have hsec : secondBar { leadState (r.indent ++ w.lead) kept with st := .oneBar, ruleEnd := (leadState (r.indent ++ w.lead) kept).ruleEnd + 1 }
        (w.raw ++ RuleText.optionText r.options) t =
        .ok { st := .data, f := r.core, data := kept, ruleStart := r.indent.length, ruleEnd := (r.indent ++ w.lead).length + 1 + 1 } := by
      have hh : r.hostPart = barHost w.raw := by unfold RuleText.hostPart; rw [ho]
      simp only [secondBar, barHost_eq, barHost_append (optionText_sep _), hostOnlyCheck_odd ho hw ht ha, Res.bind_ok, leadState,
        hat, hblanks w.lead hw.lead]
      by_cases hO : r.HostOnly <;> by_cases h64 : ch%'@' ∈ w.lead <;>
        simp [hO, h64, RuleText.core, Anchor.mask, ha, Filter.addType, hh, hex]
    refine hclose ((r.indent ++ w.lead).length + 1 + 1 + w.raw.length)
      { st := .data, f := if ch%'|' ∈ w.raw then r.core.addType FTRightAnchored else r.core, data := kept ++ w.raw.filter (· ≠ ch%'|'),
        ruleStart := r.indent.length, ruleEnd := (r.indent ++ w.lead).length + 1 + 1 + w.raw.length } ?_ (.inl rfl) rfl ?_ rfl rfl ?_
    · conv => lhs; arg 4; rw [hline]
      rw [List.append_assoc, List.append_assoc, loop_lead _ _ _ hl _ (by simp; omega), List.cons_append,
        loop_bar _ _ _ _ _ _ (leadState_fresh _ _) (by simp; omega), List.cons_append, List.nil_append,
        loop_bar2 _ _ _ _ _ _ rfl (by simp; omega), hsec, Res.bind_ok, hraw _ _ rfl (by simp; omega)]
    · exact htext.symm
    · rw [ha]; simp [Anchor.mark]; omega
  | left hl ha hne hb =>
    rw [ha] at hline hshort
    simp only [Anchor.mark, List.length_cons, List.length_nil] at hline hshort
    obtain ⟨c, q, hcq, hc⟩ : ∃ c q, w.raw ++ RuleText.optionText r.options = c :: q ∧ c ≠ ch%'|' := by
      cases hr : w.raw with
      | nil =>
        rw [hr, List.nil_append] at hne
        cases hopt : r.options with
        | none => rw [hopt] at hne; exact absurd rfl hne
        | some o => exact ⟨_, _, rfl, by decide⟩
      | cons c q => exact ⟨c, _, rfl, fun e => hb (by rw [hr, e]; rfl)⟩
    have hpos : (r.indent ++ w.lead).length + 1 < 2047 := by
      have := congrArg List.length hcq
      simp only [List.length_append, List.length_cons] at this ⊢
      cases hopt : r.options with
      | none => simp only [hopt, RuleText.optionText, List.length_nil] at this hshort; omega
      | some o => rw [hopt, if_neg (by simp)] at hshort; omega
    have hcore := hcore (by rw [ha]; simp)
    refine hclose ((r.indent ++ w.lead).length + 1 + w.raw.length)
      { st := .data, f := if ch%'|' ∈ w.raw then r.core.addType FTRightAnchored else r.core, data := kept ++ w.raw.filter (· ≠ ch%'|'),
        ruleStart := r.indent.length, ruleEnd := (r.indent ++ w.lead).length + 1 + w.raw.length } ?_ (.inl rfl) rfl ?_ rfl rfl ?_
    · conv => lhs; arg 4; rw [hline]
      rw [List.append_assoc, List.append_assoc, loop_lead _ _ _ hl _ (by simp; omega), List.cons_append,
        loop_bar _ _ _ _ _ _ (leadState_fresh _ _) (by simp; omega), List.nil_append]
      have h1 : ∀ s : PLocals, s.st = .oneBar → parseLoop r.line t pr (w.raw ++ RuleText.optionText r.options) ((r.indent ++ w.lead).length + 1) s =
          parseLoop r.line t pr (w.raw ++ RuleText.optionText r.options) ((r.indent ++ w.lead).length + 1)
            { s with st := .data, f := s.f.addType FTLeftAnchored } := by
        intro s hs
        rw [hcq]
        rcases loop_oneBar r.line t pr c q ((r.indent ++ w.lead).length + 1) s hs hc with h | h
        · exact h
        · omega
      rw [h1 _ rfl, hraw _ _ rfl (by simp; omega)]
      simp only [leadState, hat, hblanks w.lead hw.lead, hcore, ha, Anchor.mask, Filter.addType, decide_eq_true_eq]
    · exact htext.symm
    · rw [ha]; simp [Anchor.mark]; omega
  | plain hl ha h1 h2 h3 h4 =>
    rw [ha] at hline hshort
    simp only [Anchor.mark, List.length_nil, List.append_nil] at hline hshort
    have hcore := hcore (by rw [ha]; simp)
    have hf : (leadState (r.indent ++ w.lead) kept).f = r.core := by
      rw [hcore, ha]
      simp [leadState, hat, Anchor.mask]
    have hst : (leadState (r.indent ++ w.lead) kept).ruleStart = r.indent.length := hblanks w.lead hw.lead
    have hlead : parseLoop r.line t pr r.line 0 {} = parseLoop r.line t pr (w.raw ++ RuleText.optionText r.options)
        (r.indent ++ w.lead).length (leadState (r.indent ++ w.lead) kept) := by
      conv => lhs; arg 4; rw [hline]
      rw [List.append_assoc, loop_lead _ _ _ hl _ (by simp; omega)]
    cases hr : w.raw with
    | nil =>
      rw [hr, List.nil_append] at hlead
      refine hclose _ _ hlead (.inr (.inl ?_)) ?_ ?_ hst rfl ?_
      · simp [leadState, hat, h1 hr]
      · rw [hr, hf]; rfl
      · rw [htext, hr]; simp [leadState]
      · rw [ha, hr]; simp [Anchor.mark]
    | cons c raw =>
      have hcm : c ∈ w.raw := by rw [hr]; simp
      have hc0 : c ∈ r.line := by rw [hline]; simp [hcm]
      have hen := loop_enter r.line t pr c (raw ++ RuleText.optionText r.options) (r.indent ++ w.lead).length
        (leadState (r.indent ++ w.lead) kept)
        (.inl ⟨leadState_fresh _ _, h2 c (by rw [hr]; rfl), fun e => ?_, fun e => regexFilter_none (h4 (by rw [hr, e]; rfl))⟩)
        ⟨(hw.clean c hc0).2.1, (hw.clean c hc0).2.2, fun e => hw.runs.1 (e ▸ hcm)⟩ (fun e => hw.runs.2 [] raw (by rw [hr, e]; rfl))
      · refine hclose ((r.indent ++ w.lead).length + w.raw.length)
          { leadState (r.indent ++ w.lead) kept with
            st := .data, f := if ch%'|' ∈ w.raw then r.core.addType FTRightAnchored else r.core, data := kept ++ w.raw.filter (· ≠ ch%'|'),
            ruleEnd := (r.indent ++ w.lead).length + w.raw.length } ?_ (.inl rfl) rfl ?_ hst rfl ?_
        · rw [hlead, hr, List.cons_append, hen, ← List.cons_append, ← hr, hraw _ _ rfl (by simp; omega), ← hf]
          rfl
        · exact htext.symm
        · rw [ha]; simp [Anchor.mark]; omega
      · cases raw with
        | nil =>
          cases r.options <;> simp [RuleText.optionText]
        | cons d raw => exact h3 (d :: raw) (by rw [hr, e])
  | @oneAt a k mid hl e hm ha h1 =>
    rw [ha] at hline hshort
    simp only [Anchor.mark, List.length_nil, List.append_nil, e, List.length_append, List.length_cons] at hline hshort
    have hcore := hcore (by rw [ha]; simp)
    have hf : (leadState (r.indent ++ a) k).f = r.core := by
      rw [hcore, ha]
      simp [leadState, hat, Anchor.mask]
    have hst : (leadState (r.indent ++ a) k).ruleStart = r.indent.length := by
      refine hblanks a fun c hc => hw.lead c ?_
      rw [e]
      cases a with
      | nil => cases hc
      | cons d a => exact hc
    have hlead : parseLoop r.line t pr r.line 0 {} = parseLoop r.line t pr (w.raw ++ RuleText.optionText r.options)
        ((r.indent ++ a).length + 1 + mid.length)
        { leadState (r.indent ++ a) k with st := .oneAt, data := k ++ mid, ruleEnd := (r.indent ++ a).length + 1 + mid.length } := by
      conv => lhs; arg 4; rw [hline]
      rw [show r.indent ++ (a ++ 64 :: mid) ++ w.raw ++ RuleText.optionText r.options =
        (r.indent ++ a) ++ (64 :: (mid ++ (w.raw ++ RuleText.optionText r.options))) by simp]
      rw [loop_lead _ _ _ hl _ (by simp; omega), loop_at _ _ _ _ _ _ (leadState_fresh _ _) (by simp; omega),
        loop_keep _ _ _ (step_oneAt r.line t pr) mid _ _ _ rfl hm (by simp; omega)]
      rfl
    cases hr : w.raw with
    | nil =>
      rw [hr, List.nil_append] at hlead
      refine hclose _ _ hlead (.inr (.inr (.inl rfl))) ?_ ?_ hst rfl ?_
      · rw [hr]; exact hf
      · rw [htext, hr]; simp
      · rw [ha, hr, e]; simp [Anchor.mark]; omega
    | cons c raw =>
      have hcm : c ∈ w.raw := by rw [hr]; simp
      have hc0 : c ∈ r.line := by rw [hline]; simp [hcm]
      have hen := fun pos s hs => loop_enter r.line t pr c (raw ++ RuleText.optionText r.options) pos s
        (.inr ⟨hs, h1 c (by rw [hr]; rfl)⟩)
        ⟨(hw.clean c hc0).2.1, (hw.clean c hc0).2.2, fun e => hw.runs.1 (e ▸ hcm)⟩ (fun e => hw.runs.2 [] raw (by rw [hr, e]; rfl))
      refine hclose ((r.indent ++ a).length + 1 + mid.length + w.raw.length)
        { leadState (r.indent ++ a) k with
          st := .data, f := if ch%'|' ∈ w.raw then r.core.addType FTRightAnchored else r.core, data := k ++ mid ++ w.raw.filter (· ≠ ch%'|'),
          ruleEnd := (r.indent ++ a).length + 1 + mid.length + w.raw.length } ?_ (.inl rfl) rfl ?_ hst rfl ?_
      · rw [hlead, hr, List.cons_append, hen _ _ rfl, ← List.cons_append, ← hr, hraw _ _ rfl (by simp; omega), ← hf]
      · exact htext.symm
      · rw [ha, e]; simp [Anchor.mark]; omega
  | @oneBar a _ hl e ha h1 h2 =>
    rw [ha, h1, h2] at hline
    rw [ha, h1, h2] at hshort
    simp only [Anchor.mark, RuleText.optionText, List.length_nil, List.append_nil, e, List.length_append, List.length_cons] at hline hshort
    have hcore := hcore (by rw [ha]; simp)
    have hf : (leadState (r.indent ++ a) kept).f = r.core := by
      rw [hcore, ha]
      simp [leadState, hat, Anchor.mask]
    have hst : (leadState (r.indent ++ a) kept).ruleStart = r.indent.length := by
      refine hblanks a fun c hc => hw.lead c ?_
      rw [e]
      cases a with
      | nil => cases hc
      | cons d a => exact hc
    refine hclose ((r.indent ++ a).length + 1)
      { leadState (r.indent ++ a) kept with st := .oneBar, ruleEnd := (r.indent ++ a).length + 1 } ?_ (.inr (.inr (.inr ⟨rfl, h2⟩))) ?_ ?_ hst rfl ?_
    · conv => lhs; arg 4; rw [hline]
      rw [h2, ← List.append_assoc, loop_lead _ _ _ hl _ (by simp; omega), loop_bar _ _ _ _ _ _ (leadState_fresh _ _) (by simp; omega)]
      rfl
    · rw [h1]; exact hf
    · rw [htext, h1]; simp [leadState]
    · rw [ha, h1, e]; simp [Anchor.mark]; omega

end AdBlock
