import Verif.Lemmas.ParseLoop
/-! Case analysis of an iteration of the parser of one line, and induction principles. -/
namespace AdBlock
open Spec

/-! #### the loop never runs into undefined behaviour -/

def Term (t : Byte) : Prop := t = 0 ∨ t = 10 ∨ t = 13

theorem endsHost_term {t : Byte} (ht : Term t) : endsHost t = true := by
  rcases ht with rfl | rfl | rfl <;> decide

theorem anchoredHost_prefix (p : Bytes) : anchoredHost p <+: p := List.take_prefix _ _

theorem rd_of_lt {p : Ptr} {i : Nat} (h : i < p.length) : rd p i = .ok p[i] := by
  simp [rd, List.getElem?_eq_getElem h]

/-- does the host end here (the end of the line counts as an end) -/
def endsHostAt (p : Bytes) (i : Nat) : Bool :=
  match p[i]? with
  | none => true
  | some c => endsHost c

theorem hostOnlyCheck_eq (p : Bytes) {t : Byte} (ht : Term t) {n : Nat} (hn : n ≤ p.length) :
    hostOnlyCheck p t n = .ok (if p[n]? = some ch%'^' then endsHostAt p (n + 1) else endsHostAt p n) := by
  have hrd : ∀ i, i ≤ p.length → ∃ c, rd (p ++ [t]) i = .ok c ∧ endsHost c = endsHostAt p i ∧
      (c = ch%'^' ↔ p[i]? = some ch%'^') := by
    intro i hi
    rcases Nat.lt_or_ge i p.length with h | h
    · refine ⟨p[i], ?_, ?_, ?_⟩
      · rw [rd_append_left h]
      · simp [endsHostAt, List.getElem?_eq_getElem h]
      · simp [List.getElem?_eq_getElem h]
    · have e : i = p.length := by omega
      subst e
      refine ⟨t, rd_append_length, ?_, ?_⟩
      · simp [endsHostAt, endsHost_term ht]
      · rw [List.getElem?_eq_none (by omega)]
        simp only [reduceCtorEq, iff_false]
        rcases ht with rfl | rfl | rfl <;> decide
  obtain ⟨a, h1, h2, h3⟩ := hrd n hn
  unfold hostOnlyCheck
  rw [h1, Res.bind_ok]
  by_cases hc : p[n]? = some ch%'^'
  · have ha := h3.2 hc
    have hlt : n < p.length := by
      rcases Nat.lt_or_ge n p.length with h | h
      · exact h
      · simp [List.getElem?_eq_none h] at hc
    obtain ⟨b, h1', h2', _⟩ := hrd (n + 1) hlt
    have : endsHost a = false := by rw [ha]; rfl
    rw [if_pos hc, if_pos (by simp [ha]), h1', Res.bind_ok, this, h2']
    simp
  · rw [if_neg hc, if_neg (by simpa [h3] using hc), h2]
    rfl

/-- the state after a second bar -/
def PLocals.anchored (s : PLocals) (p : Bytes) : PLocals :=
  { s with
    st := .data
    ruleEnd := s.ruleEnd + 1
    f := { s.f with
      filterType := if (if p[(anchoredHost p).length]? = some ch%'^' then endsHostAt p ((anchoredHost p).length + 1)
          else endsHostAt p (anchoredHost p).length) = true
        then (s.f.filterType ||| FTHostAnchored) ||| FTHostOnly else s.f.filterType ||| FTHostAnchored
      host := some (anchoredHost p) } }

theorem secondBar_eq (s : PLocals) (p : Bytes) {t : Byte} (ht : Term t) :
    secondBar s p t = .ok (s.anchored p) := by
  unfold secondBar PLocals.anchored
  simp only [hostOnlyCheck_eq p ht (anchoredHost_prefix p).length_le, Res.bind_ok, Res.pure_eq, Res.ok.injEq,
    PLocals.mk.injEq, true_and, and_true, Filter.addType]
  generalize (if p[(anchoredHost p).length]? = some ch%'^' then endsHostAt p ((anchoredHost p).length + 1)
          else endsHostAt p (anchoredHost p).length) = b
  cases b <;> rfl

def IsWs (c : Byte) : Prop := c = 13 ∨ c = 10 ∨ c = 9 ∨ c = 32

instance (c : Byte) : Decidable (IsWs c) := inferInstanceAs (Decidable (_ ∨ _))

/-- the possible outcomes of `parseChar` -/
inductive CharOut (line : Bytes) (pr : Bool) (c : Byte) (p : Bytes) (s : PLocals) : Res Next → Prop
  | bar1 : c = ch%'|' → s.st.fresh = true → CharOut line pr c p s
      (.ok (.one { s with st := .oneBar, ruleEnd := s.ruleEnd + 1 }))
  | bar2 : c = ch%'|' → s.st = .oneBar → CharOut line pr c p s (.ok (.one (s.anchored p)))
  | barR : c = ch%'|' → s.st ≠ .start → CharOut line pr c p s
      (.ok (.one { s with st := .data, f := s.f.addType FTRightAnchored, ruleEnd := s.ruleEnd + 1 }))
  | at1 : c = ch%'@' → s.st.fresh = true → CharOut line pr c p s
      (.ok (.one { s with st := .oneAt, ruleEnd := s.ruleEnd + 1 }))
  | at2 : c = ch%'@' → s.st = .oneAt → CharOut line pr c p s
      (.ok (.one { s with st := .pastWhitespace, f := { s.f with filterType := FTException }, ruleEnd := s.ruleEnd + 1 }))
  | comment : s.st.fresh = true → (c = ch%'!' ∨ c = ch%'[' ∨ c = ch%'#' ∧ p.head? = some 32) →
      CharOut line pr c p s (.ok (.stop (.ret { s.f with filterType := FTComment })))
  | white : IsWs c → s.st = .start → CharOut line pr c p s
      (.ok (.one { s with ruleStart := s.ruleStart + 1, ruleEnd := s.ruleEnd + 1 }))
  | push : c ≠ ch%'|' → c ≠ ch%'$' → s.st ≠ .start → CharOut line pr c p s (.ok (.one (s.push c)))
  | data : c ≠ ch%'|' → c ≠ ch%'$' → ¬ IsWs c → CharOut line pr c p s (.ok (.one ({ s with st := .data }.push c)))
  | regex (f : Filter) : c = ch%'/' → s.st.fresh = true → regexFilter line pr s = some f →
      CharOut line pr c p s (.ok (.stop (.ret f)))
  | html : c = ch%'$' → p.head? = some ch%'$' → CharOut line pr c p s
      (.ok (.two { s.takeDomains with
        st := .dataOnly, f := { s.takeDomains.f with filterType := FTHTMLFiltering }
        ruleEnd := s.takeDomains.ruleEnd + 2 }))
  | opts : c = ch%'$' → p.head? ≠ some ch%'$' → CharOut line pr c p s (.ok (.stop (.fin (s.dollar line p))))
  | cosmetic (m : Mask) : c = ch%'#' → (p.head? = some ch%'#' ∨ p.head? = some ch%'@') →
      m = (if p.head? = some ch%'#' then FTElementHiding else FTElementHidingException) →
      CharOut line pr c p s
      (.ok (.two { s.takeDomains with st := .dataOnly, f := { s.takeDomains.f with filterType := m } }))

theorem not_start_of_not_fresh {st : FPState} (h : ¬ st.fresh = true) : st ≠ .start := by
  rintro rfl; exact h rfl

theorem parseChar_cases (line : Bytes) {t : Byte} (ht : Term t) (pr : Bool) (c : Byte) (p : Bytes) (s : PLocals) :
    CharOut line pr c p s (parseChar line t pr c p s) := by
  unfold parseChar
  by_cases h1 : c = ch%'|'
  · rw [if_pos h1]
    split
    · exact .bar1 h1 ‹_›
    · split
      · rw [secondBar_eq s p ht]; exact .bar2 h1 ‹_›
      · exact .barR h1 (not_start_of_not_fresh ‹_›)
  rw [if_neg h1]
  by_cases h2 : c = ch%'@'
  · rw [if_pos h2]
    split
    · exact .at1 h2 ‹_›
    · split
      · exact .at2 h2 ‹_›
      · exact .push h1 (by rw [h2]; decide) (not_start_of_not_fresh ‹_›)
  rw [if_neg h2]
  by_cases h3 : c = ch%'!' ∨ c = ch%'['
  · rw [if_pos h3]
    split
    · exact .comment ‹_› (by rcases h3 with h | h <;> simp [h])
    · exact .push h1 (by rcases h3 with rfl | rfl <;> decide) (not_start_of_not_fresh ‹_›)
  rw [if_neg h3]
  by_cases h4 : c = 13 ∨ c = 10 ∨ c = 9 ∨ c = 32
  · rw [if_pos h4]
    split
    · exact .white h4 ‹_›
    · exact .push h1 (by rcases h4 with rfl | rfl | rfl | rfl <;> decide) ‹_›
  rw [if_neg h4]
  by_cases h5 : c = ch%'/'
  · rw [if_pos h5]
    split
    · rename_i hfr
      cases hr : regexFilter line pr s with
      | some f => exact .regex f h5 hfr hr
      | none => exact .data h1 (by rw [h5]; decide) h4
    · exact .push h1 (by rw [h5]; decide) (not_start_of_not_fresh ‹_›)
  rw [if_neg h5]
  by_cases h6 : c = ch%'$'
  · rw [if_pos h6]
    split
    · exact .html h6 ‹_›
    · exact .opts h6 ‹_›
  rw [if_neg h6]
  by_cases h7 : c = ch%'#'
  · rw [if_pos h7]
    split
    · rename_i h; exact .comment h.1 (.inr (.inr ⟨h7, h.2⟩))
    · split
      · exact .cosmetic _ h7 ‹_› rfl
      · exact .data h1 h6 h4
  rw [if_neg h7]
  exact .data h1 h6 h4

/-- what a step may have left behind -/
def Next.Good (Q : LoopOut → Prop) (P : Bytes → Nat → PLocals → Prop) (p : Bytes) (pos : Nat) : Next → Prop
  | .stop o => Q o
  | .one s => P p (pos + 1) s
  | .two s => P (p.drop 1) (pos + 2) s

theorem parseLoop_cons (line : Bytes) (t : Byte) (pr : Bool) (c : Byte) (p : Bytes) (pos : Nat) (s : PLocals)
    (hp : pos < 2047) :
    parseLoop line t pr (c :: p) pos s =
      parseStep line t pr c p s >>= fun n => match n with
        | .stop o => .ok o
        | .one s' => parseLoop line t pr p (pos + 1) s'
        | .two s' => parseLoop line t pr (p.drop 1) (pos + 2) s' := by
  have hp : ¬ pos ≥ kMaxLineLength - 1 := by simp [kMaxLineLength]; omega
  conv => lhs; unfold parseLoop
  rw [if_neg hp]
  congr 1
  funext n
  cases n with
  | stop o => rfl
  | one s' => rfl
  | two s' => cases p <;> rfl

theorem parseLoop_long (line : Bytes) (t : Byte) (pr : Bool) (c : Byte) (p : Bytes) (pos : Nat) (s : PLocals)
    (hp : 2047 ≤ pos) : parseLoop line t pr (c :: p) pos s = .ok (.ret s.f) := by
  have hp : pos ≥ kMaxLineLength - 1 := by simp [kMaxLineLength]; omega
  unfold parseLoop
  rw [if_pos hp]

/-- Induction principle: an invariant of the loop. -/
theorem parseLoop_inv {line : Bytes} {t : Byte} {pr : Bool} {P : Bytes → Nat → PLocals → Prop} {Q : LoopOut → Prop}
    (hfin : ∀ pos s, P [] pos s → Q (.fin s))
    (hlong : ∀ c p pos s, P (c :: p) pos s → 2047 ≤ pos → Q (.ret s.f))
    (hstep : ∀ c p pos s n, P (c :: p) pos s → pos < 2047 → parseStep line t pr c p s = .ok n → n.Good Q P p pos)
    {rest : Bytes} {pos : Nat} {s : PLocals} {o : LoopOut} (h0 : P rest pos s)
    (h : parseLoop line t pr rest pos s = .ok o) : Q o := by
  generalize hn : rest.length = n
  induction n using Nat.strongRecOn generalizing rest pos s with
  | _ n ih =>
    cases rest with
    | nil =>
      simp only [parseLoop, Res.ok.injEq] at h
      subst h; exact hfin _ _ h0
    | cons c p =>
      simp only [List.length_cons] at hn
      by_cases hp : pos < 2047
      · rw [parseLoop_cons _ _ _ _ _ _ _ hp, Res.bind_eq_ok] at h
        obtain ⟨nx, h1, h2⟩ := h
        have := hstep c p pos s nx h0 hp h1
        cases nx with
        | stop o' => simp only [Res.ok.injEq] at h2; subst h2; exact this
        | one s' => exact ih p.length (by omega) this h2 rfl
        | two s' => exact ih (p.drop 1).length (by simp; omega) this h2 rfl
      · rw [parseLoop_long _ _ _ _ _ _ _ (by omega)] at h
        simp only [Res.ok.injEq] at h
        subst h
        exact hlong _ _ _ _ h0 (by omega)

/-- An invariant that only says of the text that is left that its characters satisfy `R`. -/
theorem parseLoop_inv' {line : Bytes} {t : Byte} (ht : Term t) {pr : Bool} {R : Byte → Prop} {P : PLocals → Prop}
    {Q : LoopOut → Prop}
    (hfin : ∀ s, P s → Q (.fin s)) (hret : ∀ s, P s → Q (.ret s.f))
    (hpush : ∀ s c, R c → s.st = .dataOnly → P s → P (s.push c))
    (hbar : ∀ s c, P s → s.st = .oneBar → c ≠ ch%'|' → P { s with st := .data, f := s.f.addType FTLeftAnchored })
    (hchar : ∀ c p s n, R c → (∀ d ∈ p, R d) → P s → s.st ≠ .dataOnly → CharOut line pr c p s (.ok n) →
      n.Good Q (fun _ _ s => P s) [] 0)
    {rest : Bytes} {pos : Nat} {s : PLocals} {o : LoopOut} (hrest : ∀ c ∈ rest, R c) (h0 : P s)
    (h : parseLoop line t pr rest pos s = .ok o) : Q o := by
  refine parseLoop_inv (P := fun rest _ s => (∀ c ∈ rest, R c) ∧ P s) (fun _ s h => hfin s h.2)
    (fun _ _ _ s hs _ => hret s hs.2) ?_ ⟨hrest, h0⟩ h
  intro c p pos s n ⟨hr, hs⟩ _ hst
  have hr' : ∀ d ∈ p, R d := fun d hd => hr d (by simp [hd])
  have conv : ∀ n : Next, n.Good Q (fun _ _ s => P s) [] 0 →
      n.Good Q (fun rest _ s => (∀ c ∈ rest, R c) ∧ P s) p pos := by
    intro n h
    cases n with
    | stop o => exact h
    | one s => exact ⟨hr', h⟩
    | two s => exact ⟨fun d hd => hr' d (List.mem_of_mem_drop hd), h⟩
  apply conv
  unfold parseStep at hst
  split at hst
  · cases hst
    exact hpush s c (hr c (by simp)) ‹_› hs
  · rename_i hne
    have hs' : P (s.bar c) ∧ (s.bar c).st ≠ .dataOnly := by
      unfold PLocals.bar
      split
      · rename_i hb
        exact ⟨hbar s c hs hb.1 hb.2, by simp⟩
      · exact ⟨hs, hne⟩
    have hc := parseChar_cases line ht pr c p (s.bar c)
    rw [hst] at hc
    exact hchar c p _ n (hr c (by simp)) hr' hs'.1 hs'.2 hc

theorem parseStep_ok (line : Bytes) {t : Byte} (ht : Term t) (pr : Bool) (c : Byte) (p : Bytes)
    (s : PLocals) : ∃ n, parseStep line t pr c p s = .ok n := by
  unfold parseStep
  split
  · exact ⟨_, rfl⟩
  · have h := parseChar_cases line ht pr c p (s.bar c)
    revert h
    generalize parseChar line t pr c p (s.bar c) = x
    intro h
    cases h <;> exact ⟨_, rfl⟩

theorem parseLoop_ok (line : Bytes) {t : Byte} (ht : Term t) (pr : Bool) (rest : Bytes) (pos : Nat)
    (s : PLocals) : ∃ o, parseLoop line t pr rest pos s = .ok o := by
  generalize hn : rest.length = n
  induction n using Nat.strongRecOn generalizing rest pos s with
  | _ n ih =>
    cases rest with
    | nil => exact ⟨_, rfl⟩
    | cons c p =>
      simp only [List.length_cons] at hn
      by_cases hp : pos < 2047
      · rw [parseLoop_cons _ _ _ _ _ _ _ hp]
        obtain ⟨nx, h⟩ := parseStep_ok line ht pr c p s
        rw [h, Res.bind_ok]
        cases nx with
        | stop o => exact ⟨_, rfl⟩
        | one s' => exact ih p.length (by omega) _ _ _ rfl
        | two s' => exact ih (p.drop 1).length (by simp; omega) _ _ _ rfl
      · exact ⟨_, parseLoop_long _ _ _ _ _ _ _ (by omega)⟩

/-! #### the terminator and `preserve` -/

theorem parseStep_term (line : Bytes) {t t' : Byte} (ht : Term t) (ht' : Term t') (pr : Bool) (c : Byte) (p : Bytes)
    (s : PLocals) : parseStep line t pr c p s = parseStep line t' pr c p s := by
  unfold parseStep parseChar
  rw [secondBar_eq _ p ht, secondBar_eq _ p ht']

theorem parseLoop_term (line : Bytes) {t t' : Byte} (ht : Term t) (ht' : Term t')
    (pr : Bool) (rest : Bytes) (pos : Nat) (s : PLocals) :
    parseLoop line t pr rest pos s = parseLoop line t' pr rest pos s := by
  generalize hn : rest.length = n
  induction n using Nat.strongRecOn generalizing rest pos s with
  | _ n ih =>
    cases rest with
    | nil => rfl
    | cons c p =>
      simp only [List.length_cons] at hn
      by_cases hp : pos < 2047
      · rw [parseLoop_cons _ _ _ _ _ _ _ hp, parseLoop_cons _ _ _ _ _ _ _ hp, parseStep_term line ht ht']
        cases parseStep line t' pr c p s with
        | ub u => rfl
        | ok nx =>
          simp only [Res.bind_ok]
          cases nx with
          | stop o => rfl
          | one s' => exact ih p.length (by omega) _ _ _ rfl
          | two s' => exact ih (p.drop 1).length (by simp; omega) _ _ _ rfl
      · rw [parseLoop_long _ _ _ _ _ _ _ (by omega), parseLoop_long _ _ _ _ _ _ _ (by omega)]

theorem parseFilter_term (bad : List Bytes) (line : Bytes) {t t' : Byte} (ht : Term t)
    (ht' : Term t') (preserve full : Bool) :
    parseFilter bad line t preserve full = parseFilter bad line t' preserve full := by
  simp only [parseFilter, parseLoop_term line ht ht']

/-- the filter without its original text -/
def Filter.strip (f : Filter) : Filter := { f with ruleDefinition := none }

def LoopOut.strip : LoopOut → LoopOut
  | .ret f => .ret f.strip
  | .fin s => .fin s

theorem regexFilter_preserve (line : Bytes) (pr : Bool) (s : PLocals) :
    (regexFilter line pr s = none ∧ regexFilter line false s = none) ∨
    ∃ f g, regexFilter line pr s = some f ∧ regexFilter line false s = some g ∧ f.strip = g.strip := by
  unfold regexFilter
  split
  · exact .inr ⟨_, _, rfl, rfl, rfl⟩
  · exact .inl ⟨rfl, rfl⟩

theorem parseStep_preserve (line : Bytes) (t : Byte) (pr : Bool) (c : Byte) (p : Bytes) (s : PLocals) :
    parseStep line t pr c p s = parseStep line t false c p s ∨
    ∃ f g, parseStep line t pr c p s = .ok (.stop (.ret f)) ∧
      parseStep line t false c p s = .ok (.stop (.ret g)) ∧ f.strip = g.strip := by
  unfold parseStep
  split
  · exact .inl rfl
  · generalize s.bar c = s
    rcases regexFilter_preserve line pr s with ⟨h1, h2⟩ | ⟨f, g, h1, h2, h3⟩
    · left; unfold parseChar; rw [h1, h2]
    · by_cases hc : c = ch%'/' ∧ s.st.fresh = true
      · right
        refine ⟨f, g, ?_, ?_, h3⟩ <;> simp [parseChar, hc, h1, h2]
      · left
        unfold parseChar
        by_cases hc1 : c = ch%'/'
        · have : ¬ s.st.fresh = true := fun h => hc ⟨hc1, h⟩
          simp only [this, hc1]
          rfl
        · simp only [hc1, if_false]

theorem parseLoop_preserve (line : Bytes) (t : Byte) (pr : Bool) (rest : Bytes) (pos : Nat) (s : PLocals) :
    LoopOut.strip <$> parseLoop line t pr rest pos s = LoopOut.strip <$> parseLoop line t false rest pos s := by
  generalize hn : rest.length = n
  induction n using Nat.strongRecOn generalizing rest pos s with
  | _ n ih =>
    cases rest with
    | nil => rfl
    | cons c p =>
      simp only [List.length_cons] at hn
      by_cases hp : pos < 2047
      · rw [parseLoop_cons _ _ _ _ _ _ _ hp, parseLoop_cons _ _ _ _ _ _ _ hp]
        rcases parseStep_preserve line t pr c p s with h | ⟨f, g, h1, h2, h3⟩
        · rw [h]
          cases parseStep line t false c p s with
          | ub u => rfl
          | ok nx =>
            simp only [Res.bind_ok]
            cases nx with
            | stop o => rfl
            | one s' => exact ih p.length (by omega) _ _ _ rfl
            | two s' => exact ih (p.drop 1).length (by simp; omega) _ _ _ rfl
        · simp [h1, h2, LoopOut.strip, h3]
      · rw [parseLoop_long _ _ _ _ _ _ _ (by omega), parseLoop_long _ _ _ _ _ _ _ (by omega)]

theorem getFingerprint_strip (bad : List Bytes) (f : Filter) : getFingerprint bad f.strip = getFingerprint bad f := rfl

def stripPair (x : Filter × Effect) : Filter × Effect := (x.1.strip, x.2)

theorem finishWith_strip (bad : List Bytes) (full : Bool) (f : Filter) :
    stripPair <$> finishWith bad full f = finishWith bad full f.strip := by
  have h1 : f.strip.filterType = f.filterType := rfl
  simp only [finishWith, getFingerprint_strip, h1]
  cases getFingerprint bad f with
  | ub u =>
    simp only [Res.bind_ub]
    repeat' split
    all_goals rfl
  | ok fp =>
    simp only [Res.bind_ok]
    repeat' split
    all_goals rfl

/-- `preserve` only influences the stored original text. -/
theorem parseFilter_preserve (bad : List Bytes) (line : Bytes) (t : Byte) (preserve full : Bool) :
    stripPair <$> parseFilter bad line t preserve full = stripPair <$> parseFilter bad line t false full := by
  have h := parseLoop_preserve line t preserve line 0 {}
  unfold parseFilter
  revert h
  cases parseLoop line t preserve line 0 {} with
  | ub u =>
    cases parseLoop line t false line 0 {} with
    | ub u' => intro h; simpa using h
    | ok o => intro h; simp at h
  | ok o =>
    cases parseLoop line t false line 0 {} with
    | ub u' => intro h; simp at h
    | ok o' =>
      intro h
      have h : o.strip = o'.strip := by simpa using h
      simp only [Res.bind_ok]
      cases o with
      | ret f =>
        cases o' with
        | ret f' =>
          have : f.strip = f'.strip := by simpa [LoopOut.strip] using h
          simp [stripPair, this]
        | fin s' => simp [LoopOut.strip] at h
      | fin s =>
        cases o' with
        | ret f' => simp [LoopOut.strip] at h
        | fin s' =>
          have : s = s' := by simpa [LoopOut.strip] using h
          subst this
          by_cases hs : s.st = .start
          · simp [finishFilter, hs]
          · simp only [finishFilter_eq _ _ _ _ hs, finishWith_strip]
            rfl

end AdBlock
