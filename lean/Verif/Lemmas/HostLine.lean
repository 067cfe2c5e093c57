import Verif.SpecLoad
import Verif.Lemmas.Loadable
/-
The outcome of the parser on lines with two bars.
-/
namespace AdBlock
open Spec

theorem onlyHost_iff {p : Bytes} (hclean : ∀ c ∈ p, c ≠ 0 ∧ c ≠ 10 ∧ c ≠ 13) :
    (if p[(anchoredHost p).length]? = some ch%'^' then endsHostAt p ((anchoredHost p).length + 1)
      else endsHostAt p (anchoredHost p).length) = true ↔ OnlyHost p := by
  unfold OnlyHost
  rw [← barHost_eq]
  generalize hh : anchoredHost p = h
  obtain ⟨r, rfl⟩ : ∃ r, p = h ++ r := by
    obtain ⟨r, h'⟩ := anchoredHost_prefix p; exact ⟨r, by rw [← hh]; exact h'.symm⟩
  clear hh
  have hget : ∀ k, (h ++ r)[h.length + k]? = r[k]? := by
    intro k
    rw [List.getElem?_append_right (Nat.le_add_right _ _), Nat.add_sub_cancel_left]
  have hends : ∀ k, endsHostAt (h ++ r) (h.length + k) = true ↔ r.drop k = [] ∨ (r.drop k).head? = some ch%'$' := by
    intro k
    unfold endsHostAt
    rw [hget]
    cases hg : r[k]? with
    | none =>
      have : r.drop k = [] := by rw [List.drop_eq_nil_iff]; simpa using hg
      simp [this]
    | some c =>
      have hd : (r.drop k).head? = some c := by rw [List.head?_drop, hg]
      have hc := hclean c (List.mem_append_right _ (List.mem_of_getElem? hg))
      have hne : r.drop k ≠ [] := fun h => by rw [h] at hd; cases hd
      simp [endsHost, isEndOfLine, hne, hd, hc]
  rw [show (h ++ r)[h.length]? = r[0]? from hget 0]
  by_cases hc : r[0]? = some ch%'^'
  · rw [if_pos hc, hends 1]
    obtain ⟨r', rfl⟩ : ∃ r', r = ch%'^' :: r' := by
      cases r with
      | nil => cases hc
      | cons d r => simp at hc; exact ⟨r, by rw [hc]⟩
    simp only [List.drop_succ_cons, List.drop_zero]
    constructor
    · intro h'; exact ⟨r', .inr rfl, h'⟩
    · rintro ⟨r'', h1 | h1, h2⟩
      · have := List.append_cancel_left h1
        subst this
        rcases h2 with h2 | h2
        · cases h2
        · exact absurd h2 (by simp)
      · have := List.append_cancel_left h1
        cases this
        exact h2
  · rw [if_neg hc, show endsHostAt (h ++ r) h.length = endsHostAt (h ++ r) (h.length + 0) from rfl, hends 0, List.drop_zero]
    constructor
    · intro h'; exact ⟨r, .inl rfl, h'⟩
    · rintro ⟨r'', h1 | h1, h2⟩
      · have := List.append_cancel_left h1
        subst this
        exact h2
      · have := List.append_cancel_left h1
        subst this
        exact absurd rfl hc

/-! #### the states of the parser -/

/-- before the text of the rule: the text kept so far is `kept` -/
structure Early (st : FPState) (kept : Bytes) (s : PLocals) : Prop where
  st : s.st = st
  data : s.data = kept
  none : s.f.data = none
  opt : s.f.filterOption = 0
  dom : s.f.domainList = Option.none
  kind : s.f.filterType = 0 ∨ s.f.filterType = FTException

/-- behind two bars and `body`, before `p` -/
structure Anch (kept body p : Bytes) (s : PLocals) : Prop where
  st : s.st = .data
  data : s.data = kept ++ body.filter (· ≠ ch%'|')
  none : s.f.data = none
  opt : s.f.filterOption = 0
  dom : s.f.domainList = Option.none
  host : s.f.host = some (barHost (body ++ p))
  anch : has s.f.filterType FTHostAnchored = true
  only : has s.f.filterType FTHostOnly = true ↔ OnlyHost (body ++ p)
  net : NetBits s.f.filterType

theorem netBits_regex {m : Mask} (h : NetBits m) : has m FTRegex = false := by
  have h1 : m = m &&& netMask := by
    have : m = m &&& (netMask ||| ~~~ netMask) := by
      rw [show netMask ||| ~~~ netMask = BitVec.allOnes 32 from by decide, BitVec.and_allOnes]
    rw [this, BitVec.and_or_distrib_left, show m &&& ~~~ netMask = 0#32 from h]
    simp [BitVec.and_assoc]
  unfold has
  rw [h1, BitVec.and_assoc, show netMask &&& FTRegex = 0#32 by decide]
  simp

/-- in the text of a rule without two bars -/
def Off (s : PLocals) : Prop := has s.f.filterType FTHostAnchored = false ∧ (s.st = .data ∨ s.st = .dataOnly)

def LoopOut.filter : LoopOut → Filter
  | .ret f => f
  | .fin s => s.f

/-- not a rule with two bars, after all -/
def Next.Off : Next → Prop
  | .stop o => has o.filter.filterType FTHostAnchored = false
  | .one s => AdBlock.Off s
  | .two s => AdBlock.Off s

/-- does a marker of rules about pages begin with `c`? -/
def Marks (c : Byte) (p : Bytes) : Prop := c = ch%'#' ∧ (p.head? = some ch%'#' ∨ p.head? = some ch%'@')

theorem Early.noAnch {st kept s} (h : Early st kept s) : has s.f.filterType FTHostAnchored = false := by
  rcases h.kind with h | h <;> rw [h] <;> decide

theorem dollar_type (s : PLocals) (line p : Bytes) : (s.dollar line p).f.filterType = s.f.filterType := by
  have hc := parseOptions_core s.f p
  simp only [Filter.core, Core.mk.injEq] at hc
  exact hc.2.1

/-- a character in the text of a rule -/
theorem data_char (line : Bytes) {t : Byte} (pr : Bool) (c : Byte) (p : Bytes) {s : PLocals} (hs : s.st = .data) :
    (c = ch%'|' ∧ parseChar line t pr c p s = .ok (.one { s with st := .data, f := s.f.addType FTRightAnchored, ruleEnd := s.ruleEnd + 1 })) ∨
    (c ≠ ch%'|' ∧ c ≠ ch%'$' ∧ ¬ Marks c p ∧ parseChar line t pr c p s = .ok (.one (s.push c))) ∨
    (c = ch%'$' ∧ p.head? ≠ some ch%'$' ∧ parseChar line t pr c p s = .ok (.stop (.fin (s.dollar line p)))) ∨
    ((c = ch%'$' ∧ p.head? = some ch%'$' ∨ Marks c p) ∧ ∃ s', parseChar line t pr c p s = .ok (.two s') ∧ Off s') := by
  have hf : s.st.fresh = false := by rw [hs]; rfl
  have he : ({ s with st := .data } : PLocals) = s := by cases s; cases hs; rfl
  unfold parseChar
  have hb : ¬ s.st = .oneBar := by rw [hs]; simp
  have ha : ¬ s.st = .oneAt := by rw [hs]; simp
  have h0 : ¬ s.st = .start := by rw [hs]; simp
  simp only [hf, hb, ha, h0, Bool.false_eq_true, if_false, false_and]
  by_cases h1 : c = ch%'|'
  · rw [if_pos h1]; exact .inl ⟨h1, rfl⟩
  rw [if_neg h1]
  right
  by_cases h6 : c = ch%'$'
  · right
    subst h6
    rw [if_neg (by decide), if_neg (by decide), if_neg (by decide), if_neg (by decide), if_pos rfl]
    by_cases hp : p.head? = some ch%'$'
    · rw [if_pos hp]
      exact .inr ⟨.inl ⟨rfl, hp⟩, _, rfl, (show has FTHTMLFiltering FTHostAnchored = false by decide), .inr rfl⟩
    · rw [if_neg hp]
      exact .inl ⟨rfl, hp, rfl⟩
  by_cases h7 : c = ch%'#'
  · subst h7
    rw [if_neg (by decide), if_neg (by decide), if_neg (by decide), if_neg (by decide), if_neg (by decide), if_pos rfl]
    by_cases hp : p.head? = some ch%'#' ∨ p.head? = some ch%'@'
    · rw [if_pos hp]
      refine .inr (.inr ⟨.inr ⟨rfl, hp⟩, _, rfl, ?_, .inr rfl⟩)
      show has (if _ then _ else _) _ = false
      split <;> decide
    · rw [if_neg hp]
      exact .inl ⟨h1, h6, fun h => hp h.2, by unfold PLocals.push; rw [← hs]⟩
  · refine .inl ⟨h1, h6, fun h => h7 h.1, ?_⟩
    rw [if_neg h6, if_neg h7]
    repeat' split
    all_goals first | rfl | (unfold PLocals.push; rw [← hs])

theorem step_of_data {line : Bytes} {t : Byte} {pr : Bool} {c : Byte} {p : Bytes} {s : PLocals} (hs : s.st = .data) :
    parseStep line t pr c p s = parseChar line t pr c p s := by
  unfold parseStep PLocals.bar
  rw [if_neg (by rw [hs]; simp), if_neg (by rw [hs]; simp)]

theorem off_char (line : Bytes) {t : Byte} (pr : Bool) (c : Byte) (p : Bytes) {s : PLocals} (hs : s.st = .data)
    (hn : has s.f.filterType FTHostAnchored = false) : ∃ n, parseChar line t pr c p s = .ok n ∧ n.Off := by
  rcases data_char line (t := t) pr c p hs with ⟨-, h⟩ | ⟨-, -, -, h⟩ | ⟨-, -, h⟩ | ⟨-, s', h, h'⟩
  · refine ⟨_, h, ?_, .inl rfl⟩
    simp only [Filter.addType, has_or_left, hn]
    decide
  · exact ⟨_, h, hn, .inl hs⟩
  · exact ⟨_, h, by show has (s.dollar line p).f.filterType _ = false; rw [dollar_type]; exact hn⟩
  · exact ⟨_, h, h'⟩

theorem off_step (line : Bytes) {t : Byte} (pr : Bool) (c : Byte) (p : Bytes) {s : PLocals} (h : Off s) :
    ∃ n, parseStep line t pr c p s = .ok n ∧ n.Off := by
  rcases h.2 with hs | hs
  · rw [step_of_data hs]; exact off_char line pr c p hs h.1
  · unfold parseStep
    rw [if_pos hs]
    exact ⟨_, rfl, h.1, .inr hs⟩

/-- a character that goes on with the text of a rule with two bars -/
theorem anch_step (line : Bytes) {t : Byte} (pr : Bool) {c : Byte} {kept body p : Bytes} {s : PLocals} (h : Anch kept body (c :: p) s)
    (hd : c ≠ ch%'$') (hm : ¬ Marks c p) : ∃ s', parseStep line t pr c p s = .ok (.one s') ∧ Anch kept (body ++ [c]) p s' := by
  rw [step_of_data h.st]
  have e : body ++ c :: p = body ++ [c] ++ p := by simp
  have hh := h.host
  have ho := h.only
  rw [e] at hh ho
  rcases data_char line (t := t) pr c p h.st with ⟨hc, h'⟩ | ⟨hc, -, -, h'⟩ | ⟨h', -⟩ | ⟨⟨h', -⟩ | h', -⟩
  · refine ⟨_, h', rfl, by rw [List.filter_append, show [c].filter (· ≠ ch%'|') = [] by simp [hc], List.append_nil]; exact h.data, h.none, h.opt, h.dom, hh, ?_, ?_, ?_⟩
    · simp only [Filter.addType, has_or_iff]; exact .inl h.anch
    · simp only [Filter.addType, has_or_iff, ← ho]
      exact ⟨fun h => h.resolve_right (by decide), .inl⟩
    · exact netBits_or h.net (by decide)
  · refine ⟨_, h', h.st, ?_, h.none, h.opt, h.dom, hh, h.anch, ho, h.net⟩
    simp only [PLocals.push, h.data]
    rw [List.filter_append, show [c].filter (· ≠ ch%'|') = [c] by simp [hc], List.append_assoc]
  · exact absurd h' hd
  · exact absurd h' hd
  · exact absurd h' hm

/-! #### before the text of a rule -/

theorem step_of_early {line : Bytes} {t : Byte} {pr : Bool} {c : Byte} {p kept : Bytes} {st : FPState} {s : PLocals} (h : Early st kept s)
    (hst : st ≠ .dataOnly) (hb : st ≠ .oneBar ∨ c = ch%'|') : parseStep line t pr c p s = parseChar line t pr c p s := by
  unfold parseStep PLocals.bar
  rw [if_neg (by rw [h.st]; exact hst), if_neg (by rw [h.st]; exact fun h => hb.elim (· h.1) h.2)]

/-- the first bar -/
theorem early_bar {line : Bytes} {t : Byte} {pr : Bool} {p kept : Bytes} {st : FPState} {s : PLocals} (h : Early st kept s)
    (hst : st.fresh = true) : ∃ s', parseStep line t pr ch%'|' p s = .ok (.one s') ∧ Early .oneBar kept s' := by
  rw [step_of_early h (by rintro rfl; cases hst) (.inr rfl)]
  unfold parseChar
  rw [if_pos rfl, h.st, if_pos hst]
  exact ⟨_, rfl, rfl, h.data, h.none, h.opt, h.dom, h.kind⟩

/-- the second bar -/
theorem early_bar2 {line : Bytes} {t : Byte} (ht : Term t) {pr : Bool} {p kept : Bytes} {s : PLocals} (h : Early .oneBar kept s)
    (hclean : ∀ c ∈ p, c ≠ 0 ∧ c ≠ 10 ∧ c ≠ 13) :
    ∃ s', parseStep line t pr ch%'|' p s = .ok (.one s') ∧ Anch kept [] p s' := by
  rw [step_of_early h (by simp) (.inr rfl)]
  unfold parseChar
  rw [if_pos rfl, h.st, if_neg (by decide), if_pos rfl, secondBar_eq s p ht]
  have key : ∀ b : Bool, (∀ x, x = 0 ∨ x = FTException →
      has (if b = true then (x ||| FTHostAnchored) ||| FTHostOnly else x ||| FTHostAnchored) FTHostAnchored = true ∧
      has (if b = true then (x ||| FTHostAnchored) ||| FTHostOnly else x ||| FTHostAnchored) FTHostOnly = b ∧
      NetBits (if b = true then (x ||| FTHostAnchored) ||| FTHostOnly else x ||| FTHostAnchored)) := by
    rintro (_ | _) x (rfl | rfl) <;> decide
  have ho := onlyHost_iff hclean
  unfold PLocals.anchored
  generalize (if p[(anchoredHost p).length]? = some ch%'^' then endsHostAt p ((anchoredHost p).length + 1)
          else endsHostAt p (anchoredHost p).length) = b at ho ⊢
  obtain ⟨k1, k2, k3⟩ := key b _ h.kind
  refine ⟨_, rfl, rfl, by simp [h.data], h.none, h.opt, h.dom, by rw [List.nil_append, ← barHost_eq], k1, ?_, k3⟩
  rw [List.nil_append, ← ho, k2]

/-- the first of two `@` -/
theorem early_at {line : Bytes} {t : Byte} {pr : Bool} {p kept : Bytes} {st : FPState} {s : PLocals} (h : Early st kept s)
    (hst : st.fresh = true) : ∃ s', parseStep line t pr ch%'@' p s = .ok (.one s') ∧ Early .oneAt kept s' := by
  rw [step_of_early h (by rintro rfl; cases hst) (.inl (by rintro rfl; cases hst))]
  unfold parseChar
  rw [if_neg (by decide), if_pos rfl, h.st, if_pos hst]
  exact ⟨_, rfl, rfl, h.data, h.none, h.opt, h.dom, h.kind⟩

/-- the second of two `@` -/
theorem early_at2 {line : Bytes} {t : Byte} {pr : Bool} {p kept : Bytes} {s : PLocals} (h : Early .oneAt kept s) :
    ∃ s', parseStep line t pr ch%'@' p s = .ok (.one s') ∧ Early .pastWhitespace kept s' := by
  rw [step_of_early h (by simp) (.inl (by simp))]
  unfold parseChar
  rw [if_neg (by decide), if_pos rfl, h.st, if_neg (by decide), if_pos rfl]
  exact ⟨_, rfl, rfl, h.data, h.none, h.opt, h.dom, .inr rfl⟩

/-- between two `@` -/
theorem early_mid {line : Bytes} {t : Byte} {pr : Bool} {c : Byte} {p kept : Bytes} {s : PLocals} (h : Early .oneAt kept s)
    (hc : c ∈ bs%"![/ \t") : ∃ s', parseStep line t pr c p s = .ok (.one s') ∧ Early .oneAt (kept ++ [c]) s' := by
  rw [step_of_early h (by simp) (.inl (by simp))]
  have he : Early .oneAt (kept ++ [c]) (s.push c) := ⟨h.st, by simp [PLocals.push, h.data], h.none, h.opt, h.dom, h.kind⟩
  have hf : s.st.fresh = false := by rw [h.st]; rfl
  have h0 : ¬ s.st = .start := by rw [h.st]; simp
  have : parseChar line t pr c p s = .ok (.one (s.push c)) := by
    simp only [List.mem_cons, List.not_mem_nil, or_false] at hc
    unfold parseChar
    simp only [hf, h0, Bool.false_eq_true, if_false]
    rcases hc with rfl | rfl | rfl | rfl | rfl <;> rfl
  exact ⟨_, this, he⟩

/-- blanks at the start of a line -/
theorem early_blank {line : Bytes} {t : Byte} {pr : Bool} {c : Byte} {p : Bytes} {s : PLocals} (h : Early .start [] s)
    (hc : c = 32 ∨ c = 9) : ∃ s', parseStep line t pr c p s = .ok (.one s') ∧ Early .start [] s' := by
  rw [step_of_early h (by simp) (.inl (by simp))]
  unfold parseChar
  rcases hc with rfl | rfl
  all_goals
    rw [if_neg (by decide), if_neg (by decide), if_neg (by decide), if_pos (by decide), if_pos h.st]
    exact ⟨_, rfl, h.st, h.data, h.none, h.opt, h.dom, h.kind⟩

/-- blanks behind two `@` -/
theorem early_past {line : Bytes} {t : Byte} {pr : Bool} {c : Byte} {p kept : Bytes} {s : PLocals} (h : Early .pastWhitespace kept s)
    (hc : c = 32 ∨ c = 9) : ∃ s', parseStep line t pr c p s = .ok (.one s') ∧ Early .pastWhitespace (kept ++ [c]) s' := by
  rw [step_of_early h (by simp) (.inl (by simp))]
  have he : Early .pastWhitespace (kept ++ [c]) (s.push c) := ⟨h.st, by simp [PLocals.push, h.data], h.none, h.opt, h.dom, h.kind⟩
  have h0 : ¬ s.st = .start := by rw [h.st]; simp
  unfold parseChar
  rcases hc with rfl | rfl
  all_goals
    rw [if_neg (by decide), if_neg (by decide), if_neg (by decide), if_pos (by decide), if_neg h0]
    exact ⟨_, rfl, he⟩

/-- anything else begins a rule without two bars, or ends the rule -/
theorem early_off {line : Bytes} {t : Byte} (ht : Term t) {pr : Bool} {c : Byte} {p kept : Bytes} {st : FPState} {s : PLocals} (h : Early st kept s)
    (hst : st = .start ∨ st = .pastWhitespace ∨ st = .oneAt ∨ st = .oneBar)
    (h1 : c = ch%'|' → st = .oneAt) (h2 : c = ch%'@' → st = .oneBar) (h3 : IsWs c → st = .oneBar)
    (h4 : c ∈ bs%"![/" → st ≠ .oneAt) : ∃ n, parseStep line t pr c p s = .ok n ∧ n.Off := by
  by_cases hb : st = .oneBar
  · subst hb
    have hc : c ≠ ch%'|' := fun hc => by cases h1 hc
    unfold parseStep PLocals.bar
    rw [if_neg (by rw [h.st]; simp), if_pos ⟨h.st, hc⟩]
    refine off_char line pr c p rfl ?_
    simp only [Filter.addType, has_or_left, h.noAnch]
    decide
  · rw [step_of_early h (by rintro rfl; simp at hst) (.inl hb)]
    have hn := h.noAnch
    have hcase := parseChar_cases line ht pr c p s
    generalize hr : parseChar line t pr c p s = r at hcase
    cases hcase with
    | bar1 e1 e2 =>
      have := h1 e1
      rw [h.st, this] at e2
      cases e2
    | bar2 e1 e2 => exact absurd (h.st ▸ e2) hb
    | barR e1 e2 =>
      refine ⟨_, rfl, ?_, .inl rfl⟩
      simp only [Filter.addType, has_or_left, hn]
      decide
    | at1 e1 e2 => exact absurd (h2 e1) hb
    | at2 e1 e2 => exact absurd (h2 e1) hb
    | comment e1 e2 => exact ⟨_, rfl, (show has FTComment FTHostAnchored = false by decide)⟩
    | white e1 e2 => exact absurd (h3 e1) hb
    | push e1 e2 e3 =>
      exfalso
      have hst' : s.st = .pastWhitespace ∨ s.st = .oneAt := by
        rw [h.st] at e3 ⊢
        rcases hst with h | h | h | h
        · exact absurd h e3
        · exact .inl h
        · exact .inr h
        · exact absurd h hb
      have hnd : s.st ≠ .data := by rcases hst' with h | h <;> rw [h] <;> simp
      have hat : c ≠ ch%'@' := fun hc => hb (h2 hc)
      have hws : ¬ (c = 13 ∨ c = 10 ∨ c = 9 ∨ c = 32) := fun hc => hb (h3 hc)
      have hfr : c ∈ bs%"![/" → s.st.fresh = true := by
        intro hc
        rcases hst' with h' | h'
        · rw [h']; rfl
        · exact absurd (h.st ▸ h') (h4 hc)
      have hne : ∀ {u : PLocals}, u.st = .data → Res.ok (Next.one u) ≠ Res.ok (Next.one (s.push c)) := by
        intro u hu he
        cases he
        exact hnd hu
      unfold parseChar at hr
      rw [if_neg e1, if_neg hat] at hr
      by_cases k1 : c = ch%'!' ∨ c = ch%'['
      · rw [if_pos k1, if_pos (hfr (by rcases k1 with rfl | rfl <;> decide))] at hr
        cases hr
      rw [if_neg k1, if_neg hws] at hr
      by_cases k2 : c = ch%'/'
      · rw [if_pos k2, if_pos (hfr (by subst k2; decide))] at hr
        cases hx : regexFilter line pr s with
        | some f => rw [hx] at hr; cases hr
        | none => rw [hx] at hr; exact hne rfl hr
      rw [if_neg k2, if_neg e2] at hr
      by_cases k3 : c = ch%'#'
      · rw [if_pos k3] at hr
        split at hr
        · cases hr
        · split at hr
          · cases hr
          · exact hne rfl hr
      · rw [if_neg k3] at hr
        exact hne rfl hr
    | data e1 e2 e3 => exact ⟨_, rfl, hn, .inl rfl⟩
    | regex f e1 e2 e3 =>
      unfold regexFilter at e3
      split at e3
      · cases e3
        exact ⟨_, rfl, (show has FTRegex FTHostAnchored = false by decide)⟩
      · cases e3
    | html e1 e2 => exact ⟨_, rfl, (show has FTHTMLFiltering FTHostAnchored = false by decide), .inr rfl⟩
    | opts e1 e2 => exact ⟨_, rfl, by show has (s.dollar line p).f.filterType _ = false; rw [dollar_type]; exact hn⟩
    | cosmetic m e1 e2 e3 =>
      refine ⟨_, rfl, ?_, .inr rfl⟩
      show has m _ = false
      rw [e3]
      split <;> decide

/-! #### lines with two bars -/

/-- characters which the parser passes one by one -/
theorem parseLoop_one {line : Bytes} {t : Byte} {pr : Bool} {c : Byte} {p : Bytes} {pos : Nat} {s s' : PLocals} (hp : pos < 2047)
    (h : parseStep line t pr c p s = .ok (.one s')) : parseLoop line t pr (c :: p) pos s = parseLoop line t pr p (pos + 1) s' := by
  rw [parseLoop_cons _ _ _ _ _ _ _ hp, h]; rfl

theorem pass_run {line : Bytes} {t : Byte} {pr : Bool} {R : Byte → Prop} {I : Bytes → PLocals → Prop}
    (hstep : ∀ {c p kept s}, R c → I kept s → ∃ s', parseStep line t pr c p s = .ok (.one s') ∧ I (kept ++ [c]) s')
    {run : Bytes} (hrun : ∀ c ∈ run, R c) {kept r : Bytes} {pos : Nat} {s : PLocals} (hs : I kept s) (hp : pos + run.length ≤ 2047) :
    ∃ s', parseLoop line t pr (run ++ r) pos s = parseLoop line t pr r (pos + run.length) s' ∧ I (kept ++ run) s' := by
  induction run generalizing kept pos s with
  | nil => exact ⟨s, rfl, by simpa using hs⟩
  | cons c run ih =>
    simp only [List.length_cons] at hp ⊢
    obtain ⟨s1, h1, h2⟩ := hstep (p := run ++ r) (hrun c (by simp)) hs
    obtain ⟨s2, h3, h4⟩ := ih (fun c hc => hrun c (by simp [hc])) h2 (pos := pos + 1) (by omega)
    refine ⟨s2, ?_, by simpa using h4⟩
    rw [List.cons_append, parseLoop_one (by omega) h1, h3]
    congr 1
    omega

/-- what stands before the bars -/
theorem pass_lead {line : Bytes} {t : Byte} {pr : Bool} {a kept : Bytes} (h : Lead a kept) (r : Bytes) (hlen : a.length ≤ 2047) :
    ∃ s st, parseLoop line t pr (a ++ r) 0 {} = parseLoop line t pr r a.length s ∧ Early st kept s ∧ st.fresh = true := by
  induction h generalizing r with
  | @blanks ws hw =>
    obtain ⟨s, h1, h2⟩ := pass_run (line := line) (t := t) (pr := pr) (I := fun _ s => Early .start [] s) (fun hc hs => early_blank hs hc) hw (kept := [])
      (r := r) (pos := 0) (s := {}) ⟨rfl, rfl, rfl, rfl, rfl, .inl rfl⟩ (by omega)
    exact ⟨s, .start, by rw [h1, Nat.zero_add], h2, rfl⟩
  | @ats a kept mid tail _ hm ht ih =>
    simp only [List.length_append, List.length_cons] at hlen
    obtain ⟨s, st, h1, h2, h3⟩ := ih (ch%'@' :: mid ++ ch%'@' :: tail ++ r) (by omega)
    obtain ⟨s1, h4, h5⟩ := early_at (line := line) (t := t) (pr := pr) (p := mid ++ ch%'@' :: tail ++ r) h2 h3
    obtain ⟨s2, h6, h7⟩ := pass_run (line := line) (t := t) (pr := pr) (I := fun k s => Early .oneAt k s) (fun hc hs => early_mid hs hc) hm
      (r := ch%'@' :: tail ++ r) (pos := a.length + 1) h5 (by omega)
    obtain ⟨s3, h8, h9⟩ := early_at2 (line := line) (t := t) (pr := pr) (p := tail ++ r) h7
    obtain ⟨s4, h10, h11⟩ := pass_run (line := line) (t := t) (pr := pr) (I := fun k s => Early .pastWhitespace k s) (fun hc hs => early_past hs hc) ht
      (r := r) (pos := a.length + 1 + mid.length + 1) h9 (by omega)
    refine ⟨s4, .pastWhitespace, ?_, h11, rfl⟩
    rw [show a ++ ch%'@' :: mid ++ ch%'@' :: tail ++ r = a ++ (ch%'@' :: mid ++ ch%'@' :: tail ++ r) by simp, h1]
    rw [show ch%'@' :: mid ++ ch%'@' :: tail ++ r = ch%'@' :: (mid ++ ch%'@' :: tail ++ r) by simp, parseLoop_one (by omega) h4]
    rw [show mid ++ ch%'@' :: tail ++ r = mid ++ (ch%'@' :: tail ++ r) by simp, h6, List.cons_append, parseLoop_one (by omega) h8, h10]
    congr 1
    simp only [List.length_append, List.length_cons]
    omega

/-- what stands behind the bars -/
theorem pass_body {line : Bytes} {t : Byte} {pr : Bool} {kept pre body r : Bytes} (h : RunsOn body r) {pos : Nat} {s : PLocals}
    (hs : Anch kept pre (body ++ r) s) (hp : pos + body.length ≤ 2047) :
    ∃ s', parseLoop line t pr (body ++ r) pos s = parseLoop line t pr r (pos + body.length) s' ∧ Anch kept (pre ++ body) r s' := by
  induction body generalizing pre pos s with
  | nil => exact ⟨s, rfl, by simpa using hs⟩
  | cons c body ih =>
    simp only [List.length_cons] at hp ⊢
    obtain ⟨s1, h1, h2⟩ := anch_step line (t := t) pr (p := body ++ r) hs (fun hc => h.1 (by simp [hc])) (fun hm => by
      have := h.2 [] body (by rw [hm.1]; rfl)
      exact hm.2.elim this.1 this.2)
    have h' : RunsOn body r := ⟨fun hc => h.1 (by simp [hc]), fun x y e => h.2 (c :: x) y (by rw [e]; rfl)⟩
    obtain ⟨s2, h3, h4⟩ := ih h' h2 (pos := pos + 1) (by omega)
    refine ⟨s2, ?_, by simpa using h4⟩
    rw [List.cons_append, parseLoop_one (by omega) h1, h3]
    congr 1
    omega

theorem pass_hostLine {line : Bytes} {t : Byte} (ht : Term t) {pr : Bool} {a kept body rest : Bytes} (h : HostLine line a kept body rest)
    (hclean : ∀ c ∈ line, c ≠ 0 ∧ c ≠ 10 ∧ c ≠ 13) (hp : (a ++ bs%"||" ++ body).length ≤ 2047) :
    ∃ s, parseLoop line t pr line 0 {} = parseLoop line t pr rest (a ++ bs%"||" ++ body).length s ∧ Anch kept body rest s := by
  simp only [List.length_append, List.length_cons, List.length_nil] at hp
  obtain ⟨s, st, h1, h2, h3⟩ := pass_lead (line := line) (t := t) (pr := pr) h.lead (bs%"||" ++ body ++ rest) (by omega)
  obtain ⟨s1, h4, h5⟩ := early_bar (line := line) (t := t) (pr := pr) (p := ch%'|' :: (body ++ rest)) h2 h3
  obtain ⟨s2, h6, h7⟩ := early_bar2 (line := line) ht (pr := pr) (p := body ++ rest) h5 (fun c hc => hclean c (by
    rw [h.line, List.append_assoc]
    exact List.mem_append_right _ hc))
  obtain ⟨s3, h8, h9⟩ := pass_body (line := line) (t := t) (pr := pr) h.runs h7 (pos := a.length + 1 + 1) (by omega)
  refine ⟨s3, ?_, h9⟩
  have e : parseLoop line t pr line 0 {} = parseLoop line t pr (a ++ (bs%"||" ++ body ++ rest)) 0 {} := by
    congr 1
    rw [h.line]; simp
  rw [e, h1, show bs%"||" ++ body ++ rest = ch%'|' :: ch%'|' :: (body ++ rest) by rfl, parseLoop_one (by omega) h4, parseLoop_one (by omega) h6, h8]
  congr 1
  simp only [List.length_append, List.length_cons, List.length_nil]

/-! #### the outcome for every line -/

inductive LineInv (line cur : Bytes) (pos : Nat) (s : PLocals) : Prop
  | start : (∀ c ∈ line.take pos, c = 32 ∨ c = 9) → Early .start [] s → LineInv line cur pos s
  | past {a kept mid tail} : line.take pos = a ++ ch%'@' :: mid ++ ch%'@' :: tail → Lead a kept → (∀ c ∈ mid, c ∈ bs%"![/ \t") →
      (∀ c ∈ tail, c = 32 ∨ c = 9) → Early .pastWhitespace (kept ++ mid ++ tail) s → LineInv line cur pos s
  | oneAt {a kept mid} : line.take pos = a ++ ch%'@' :: mid → Lead a kept → (∀ c ∈ mid, c ∈ bs%"![/ \t") →
      Early .oneAt (kept ++ mid) s → LineInv line cur pos s
  | oneBar {a kept} : line.take pos = a ++ [ch%'|'] → Lead a kept → Early .oneBar kept s → LineInv line cur pos s
  | anch {a kept body} : HostLine line a kept body cur → (a ++ bs%"||" ++ body).length = pos → pos ≤ 2047 → Anch kept body cur s →
      LineInv line cur pos s
  | off : Off s → LineInv line cur pos s

/-- the outcome of the loop for a rule with two bars -/
inductive AnchOut (line a kept body rest : Bytes) (s : PLocals) : LoopOut → Prop
  | fin : rest = [] → (a ++ bs%"||" ++ body).length ≤ 2047 → AnchOut line a kept body rest s (.fin s)
  | opts {o : Bytes} : rest = ch%'$' :: o → o.head? ≠ some ch%'$' → (a ++ bs%"||" ++ body).length < 2047 →
      AnchOut line a kept body rest s (.fin (s.dollar line o))
  | long : rest ≠ [] → (a ++ bs%"||" ++ body).length = 2047 → AnchOut line a kept body rest s (.ret s.f)

theorem line_outcome {line : Bytes} {t : Byte} (ht : Term t) {pr : Bool} {o : LoopOut} (hclean : ∀ c ∈ line, c ≠ 0 ∧ c ≠ 10 ∧ c ≠ 13)
    (h : parseLoop line t pr line 0 {} = .ok o) :
    has o.filter.filterType FTHostAnchored = false ∨
    ∃ a kept body rest s, HostLine line a kept body rest ∧ Anch kept body rest s ∧ AnchOut line a kept body rest s o := by
  have h0 : LineInv line line 0 {} := .start (by simp) ⟨rfl, rfl, rfl, rfl, rfl, .inl rfl⟩
  refine parseLoop_inv (P := fun cur pos s => cur = line.drop pos ∧ LineInv line cur pos s) (Q := fun o =>
    has o.filter.filterType FTHostAnchored = false ∨
    ∃ a kept body rest s, HostLine line a kept body rest ∧ Anch kept body rest s ∧ AnchOut line a kept body rest s o) ?_ ?_ ?_
    (rest := line) (pos := 0) (s := {}) ⟨rfl, h0⟩ h
  · rintro pos s ⟨-, hs⟩
    cases hs with
    | start _ he => exact .inl he.noAnch
    | past _ _ _ _ he => exact .inl he.noAnch
    | oneAt _ _ _ he => exact .inl he.noAnch
    | oneBar _ _ he => exact .inl he.noAnch
    | off he => exact .inl he.1
    | @anch a kept body h1 h2 h3 h4 => exact .inr ⟨a, kept, body, [], s, h1, h4, .fin rfl (by omega)⟩
  · rintro c p pos s ⟨-, hs⟩ hp
    cases hs with
    | start _ he => exact .inl he.noAnch
    | past _ _ _ _ he => exact .inl he.noAnch
    | oneAt _ _ _ he => exact .inl he.noAnch
    | oneBar _ _ he => exact .inl he.noAnch
    | off he => exact .inl he.1
    | @anch a kept body h1 h2 h3 h4 => exact .inr ⟨a, kept, body, c :: p, s, h1, h4, .long (by simp) (by omega)⟩
  · rintro c p pos s n ⟨hr, hs⟩ hp hn
    have hp1 : p = line.drop (pos + 1) := by
      have := congrArg (List.drop 1) hr
      simpa [List.drop_drop] using this
    have hp2 : p.drop 1 = line.drop (pos + 2) := by rw [hp1, List.drop_drop]
    have htake : line.take (pos + 1) = line.take pos ++ [c] := by
      have hg : line[pos]? = some c := by
        have := congrArg (fun l => l[0]?) hr
        simpa using this.symm
      rw [List.take_add_one, hg]; rfl
    have hline : line = line.take pos ++ c :: p := by
      conv => lhs; rw [← List.take_append_drop pos line]
      rw [← hr]
    have hws : IsWs c → c = 32 ∨ c = 9 := by
      have := hclean c (by rw [hline]; simp)
      rintro (h | h | h | h)
      · exact absurd h this.2.2
      · exact absurd h this.2.1
      · exact .inr h
      · exact .inl h
    have hpos : (line.take pos).length = pos := by
      have := congrArg List.length hr
      simp at this
      rw [List.length_take]
      omega
    have off : ∀ {n : Next}, n.Off → n.Good (fun o => has o.filter.filterType FTHostAnchored = false ∨
        ∃ a kept body rest s, HostLine line a kept body rest ∧ Anch kept body rest s ∧ AnchOut line a kept body rest s o)
        (fun cur pos s => cur = line.drop pos ∧ LineInv line cur pos s) p pos := by
      intro n hn
      cases n with
      | stop o => exact .inl hn
      | one s => exact ⟨hp1, .off hn⟩
      | two s => exact ⟨hp2, .off hn⟩
    have one : ∀ {s'}, parseStep line t pr c p s = .ok (.one s') → LineInv line p (pos + 1) s' → n.Good (fun o => has o.filter.filterType FTHostAnchored = false ∨
        ∃ a kept body rest s, HostLine line a kept body rest ∧ Anch kept body rest s ∧ AnchOut line a kept body rest s o)
        (fun cur pos s => cur = line.drop pos ∧ LineInv line cur pos s) p pos := by
      intro s' h1 h2
      rw [hn] at h1
      cases h1
      exact ⟨hp1, h2⟩
    have offs : ∀ {st kept}, Early st kept s → (st = .start ∨ st = .pastWhitespace ∨ st = .oneAt ∨ st = .oneBar) →
        (c = ch%'|' → st = .oneAt) → (c = ch%'@' → st = .oneBar) → (IsWs c → st = .oneBar) → (c ∈ bs%"![/" → st ≠ .oneAt) →
        n.Good (fun o => has o.filter.filterType FTHostAnchored = false ∨
        ∃ a kept body rest s, HostLine line a kept body rest ∧ Anch kept body rest s ∧ AnchOut line a kept body rest s o)
        (fun cur pos s => cur = line.drop pos ∧ LineInv line cur pos s) p pos := by
      intro st kept he hst g1 g2 g3 g4
      obtain ⟨n', h1, h2⟩ := early_off (line := line) ht (pr := pr) (p := p) he hst g1 g2 g3 g4
      rw [hn] at h1
      cases h1
      exact off h2
    have fresh : ∀ {st kept}, Early st kept s → Lead (line.take pos) kept → (st = .start ∨ st = .pastWhitespace) → ¬ IsWs c →
        n.Good (fun o => has o.filter.filterType FTHostAnchored = false ∨
        ∃ a kept body rest s, HostLine line a kept body rest ∧ Anch kept body rest s ∧ AnchOut line a kept body rest s o)
        (fun cur pos s => cur = line.drop pos ∧ LineInv line cur pos s) p pos := by
      intro st kept he hl hst hw
      have hfr : st.fresh = true := by rcases hst with rfl | rfl <;> rfl
      by_cases h1 : c = ch%'|'
      · subst h1
        obtain ⟨s', h1, h2⟩ := early_bar (line := line) (t := t) (pr := pr) (p := p) he hfr
        exact one h1 (.oneBar htake hl h2)
      by_cases h2 : c = ch%'@'
      · subst h2
        obtain ⟨s', h1, h2⟩ := early_at (line := line) (t := t) (pr := pr) (p := p) he hfr
        exact one h1 (.oneAt (mid := []) htake hl (by simp) (by simpa using h2))
      exact offs he (by rcases hst with h | h <;> simp [h]) (absurd · h1) (absurd · h2) (absurd · hw) (fun _ => by rcases hst with rfl | rfl <;> simp)
    cases hs with
    | start hb he =>
      by_cases hw : IsWs c
      · obtain ⟨s', h1, h2⟩ := early_blank (line := line) (t := t) (pr := pr) (p := p) he (hws hw)
        refine one h1 (.start (fun d hd => ?_) h2)
        rw [htake] at hd
        rcases List.mem_append.1 hd with hd | hd
        · exact hb d hd
        · rw [List.mem_singleton.1 hd]; exact hws hw
      · exact fresh he (.blanks hb) (.inl rfl) hw
    | @past a kept mid tail h1 h2 h3 h4 he =>
      by_cases hw : IsWs c
      · obtain ⟨s', g1, g2⟩ := early_past (line := line) (t := t) (pr := pr) (p := p) he (hws hw)
        refine one g1 (.past (tail := tail ++ [c]) (by rw [htake, h1]; simp) h2 h3 (fun d hd => ?_) (by simpa using g2))
        rcases List.mem_append.1 hd with hd | hd
        · exact h4 d hd
        · rw [List.mem_singleton.1 hd]; exact hws hw
      · exact fresh he (by rw [h1]; exact .ats h2 h3 h4) (.inr rfl) hw
    | @oneAt a kept mid h1 h2 h3 he =>
      by_cases hc : c ∈ bs%"![/ \t"
      · obtain ⟨s', g1, g2⟩ := early_mid (line := line) (t := t) (pr := pr) (p := p) he hc
        refine one g1 (.oneAt (mid := mid ++ [c]) (by rw [htake, h1]; simp) h2 (fun d hd => ?_) (by simpa using g2))
        rcases List.mem_append.1 hd with hd | hd
        · exact h3 d hd
        · rw [List.mem_singleton.1 hd]; exact hc
      by_cases hc2 : c = ch%'@'
      · subst hc2
        obtain ⟨s', g1, g2⟩ := early_at2 (line := line) (t := t) (pr := pr) (p := p) he
        exact one g1 (.past (tail := []) (by rw [htake, h1]) h2 h3 (by simp) (by simpa using g2))
      refine offs he (by simp) (fun _ => rfl) (absurd · hc2) (fun hw => ?_) (fun h => ?_)
      · exact absurd (by rcases hws hw with rfl | rfl <;> decide) hc
      · exfalso
        apply hc
        simp only [List.mem_cons, List.not_mem_nil, or_false] at h ⊢
        rcases h with h | h | h <;> simp [h]
    | @oneBar a kept h1 h2 he =>
      by_cases hc : c = ch%'|'
      · subst hc
        obtain ⟨s', g1, g2⟩ := early_bar2 (line := line) ht (pr := pr) (p := p) he (fun d hd => hclean d (by rw [hline]; simp [hd]))
        have hlen : (a ++ bs%"||" ++ []).length = pos + 1 := by
          rw [← hpos, h1]; simp
        refine one g1 (.anch (body := []) ⟨?_, h2, by simp, fun x y e => by simp at e⟩ hlen (by omega) g2)
        rw [hline, h1]; simp
      · exact offs he (by simp) (absurd · hc) (fun _ => rfl) (fun _ => rfl) (by simp)
    | off he =>
      obtain ⟨n', h1, h2⟩ := off_step line (t := t) pr c p he
      rw [hn] at h1
      cases h1
      exact off h2
    | @anch a kept body h1 h2 h3 h4 =>
      by_cases hd : c = ch%'$' ∨ Marks c p
      · have hn' := hn
        rw [step_of_data h4.st] at hn'
        rcases data_char line (t := t) pr c p h4.st with ⟨hc, -⟩ | ⟨-, hc, hm, -⟩ | ⟨hc, hp', h'⟩ | ⟨-, s', h', h''⟩
        · exfalso
          subst hc
          rcases hd with hd | hd
          · exact absurd hd (by decide)
          · exact absurd hd.1 (by decide)
        · exact absurd hd (fun h => h.elim hc hm)
        · rw [hn'] at h'
          cases h'
          subst hc
          exact .inr ⟨a, kept, body, _, s, h1, h4, .opts rfl hp' (by omega)⟩
        · rw [hn'] at h'
          cases h'
          exact off (n := .two s') h''
      · obtain ⟨s', g1, g2⟩ := anch_step line (t := t) pr h4 (fun h => hd (.inl h)) (fun h => hd (.inr h))
        refine one g1 (.anch (body := body ++ [c]) ⟨h1.line.trans (by simp), h1.lead, ?_, ?_⟩ (by rw [← h2]; simp; omega) (by omega) g2)
        · rw [List.mem_append, List.mem_singleton]
          exact fun h => h.elim h1.runs.1 (fun h => hd (.inl h.symm))
        · intro x y e
          rcases List.eq_nil_or_concat y with rfl | ⟨y', d, rfl⟩
          · have := List.append_inj_right' e rfl
            cases this
            exact ⟨fun h => hd (.inr ⟨rfl, .inl h⟩), fun h => hd (.inr ⟨rfl, .inr h⟩)⟩
          · rw [List.concat_eq_append] at e ⊢
            have e' : body ++ [c] = x ++ ch%'#' :: y' ++ [d] := by rw [e]; simp
            have e1 := List.append_inj_left' e' rfl
            have e2 := List.append_inj_right' e' rfl
            cases e2
            have := h1.runs.2 x y' e1
            simpa using this

/-! #### which lines can be read -/

theorem fingerprint_short (bad : List Bytes) {f : Filter} {h d : Bytes} (hn : has f.filterType FTRegex = false)
    (ha : has f.filterType FTHostAnchored = true) (hh : f.host = some h) (hd : f.data = some (cstr d)) (hl : d.length < h.length) :
    getFingerprint bad f = .ub .oobRead := by
  unfold getFingerprint
  rw [hn, ha, hh, hd]
  have : (cstr d).drop h.length = [] := by
    rw [List.drop_eq_nil_iff]
    simp [cstr]
    omega
  simp only [this]
  rfl

theorem fingerprint_null (bad : List Bytes) {f : Filter} {h : Bytes} (hn : has f.filterType FTRegex = false)
    (ha : has f.filterType FTHostAnchored = true) (hh : f.host = some h) (hd : f.data = none) (hne : h ≠ []) :
    getFingerprint bad f = .ub .nullDeref := by
  unfold getFingerprint
  rw [hn, ha, hh, hd]
  have : ¬ h.length = 0 := by simpa using hne
  simp only [this]
  rfl

theorem fingerprint_empty (bad : List Bytes) {f : Filter} (hh : f.host = some []) (hd : f.data = none) :
    getFingerprint bad f = .ok none := by
  unfold getFingerprint
  rw [hh, hd]
  cases has f.filterType FTRegex <;> cases has f.filterType FTHostAnchored <;> rfl

theorem dollar_host (s : PLocals) (line p : Bytes) : (s.dollar line p).f.host = s.f.host := by
  have hc := parseOptions_core s.f p
  simp only [Filter.core, Core.mk.injEq] at hc
  exact hc.2.2.2.2.2

theorem kind_of_net {f : Filter} (h : NetBits f.filterType) : Kind (has f.filterType FTException) f := netBits_list h

/-- the lines that are not read to an end -/
theorem line_ub (bad : List Bytes) {line : Bytes} (hclean : ∀ c ∈ line, c ≠ 0 ∧ c ≠ 10 ∧ c ≠ 13) :
    (NoText line → lineClass bad (line, 0) = .ub .nullDeref) ∧ (TextTooShort line → lineClass bad (line, 0) = .ub .oobRead) := by
  have finish : ∀ {s : PLocals}, s.st ≠ .start → NetBits s.f.filterType → getFingerprint bad (s.result line false) = .ub .oobRead →
      finishFilter bad line false false s = .ub .oobRead := by
    intro s h1 hn h2
    rw [finishFilter_eq _ _ _ _ h1]
    unfold finishWith
    have hk := netBits_list hn
    have e : ∀ x : Mask, (∀ b : Bool, ¬ x &&& FTListTypesMask = if b = true then FTException else 0#32) → ¬ s.f.filterType = x := by
      rintro x hx rfl
      exact hx _ hk
    have e1 : ¬ (s.result line false).filterType = FTElementHiding := e _ (by decide)
    have e2 : ¬ (s.result line false).filterType = FTElementHidingException := e _ (by decide)
    rw [if_neg e1, if_neg e2, h2]
    rfl
  constructor
  · rintro ⟨a, kept, body, rest, hl, hr, hlen, hh, ho⟩
    obtain ⟨s, h1, h2⟩ := pass_hostLine (t := 0) (.inl rfl) (pr := false) hl hclean (by omega)
    obtain ⟨c, p, rfl⟩ := List.exists_cons_of_ne_nil hr
    rw [parseLoop_long _ _ _ _ _ _ _ (by omega)] at h1
    unfold lineClass parseFilter
    simp only [h1, Res.bind_ok, Res.pure_eq]
    have hu : s.f.hasUnsupportedOptions = false := by unfold Filter.hasUnsupportedOptions; rw [h2.opt]; decide
    have hno : ¬ has s.f.filterType FTHostOnly = true := fun h => ho (h2.only.1 h)
    rw [classify_kind bad hu (kind_of_net h2.net), if_neg hno, fingerprint_null bad (netBits_regex h2.net) h2.anch h2.host h2.none hh]
    rfl
  · rintro ⟨a, kept, body, rest, hl, hcase, hlt⟩
    have key : ∀ s : PLocals, s.st = .data → s.data = kept ++ body.filter (· ≠ ch%'|') → NetBits s.f.filterType →
        has s.f.filterType FTHostAnchored = true → s.f.host = some (barHost (body ++ rest)) → parseLoop line 0 false line 0 {} = .ok (.fin s) →
        lineClass bad (line, 0) = .ub .oobRead := by
      intro s e1 e2 e3 e4 e5 e6
      unfold lineClass parseFilter
      simp only [e6, Res.bind_ok]
      rw [finish (by rw [e1]; simp) e3 (fingerprint_short bad (h := barHost (body ++ rest)) (d := s.data) (netBits_regex e3) e4 e5 rfl (by rw [e2]; exact hlt))]
      rfl
    rcases hcase with ⟨rfl, hlen⟩ | ⟨⟨o, rfl, ho⟩, hlen⟩
    · have hlen : (a ++ bs%"||" ++ body).length ≤ 2047 := by rw [hl.line, List.append_nil] at hlen; exact hlen
      obtain ⟨s, h1, h2⟩ := pass_hostLine (t := 0) (.inl rfl) (pr := false) hl hclean hlen
      exact key s h2.st h2.data h2.net h2.anch h2.host (by rw [h1]; rfl)
    · obtain ⟨s, h1, h2⟩ := pass_hostLine (t := 0) (.inl rfl) (pr := false) hl hclean (by omega)
      have hd : parseStep line 0 false ch%'$' o s = .ok (.stop (.fin (s.dollar line o))) := by
        rw [step_of_data h2.st]
        rcases data_char line (t := 0) false ch%'$' o h2.st with ⟨h, -⟩ | ⟨-, h, -⟩ | ⟨-, -, h⟩ | ⟨⟨-, h⟩ | h, -⟩
        · exact absurd h (by decide)
        · exact absurd rfl h
        · exact h
        · exact absurd h ho
        · exact absurd h.1 (by decide)
      rw [parseLoop_cons _ _ _ _ _ _ _ hlen, hd] at h1
      exact key (s.dollar line o) h2.st h2.data (by rw [dollar_type]; exact h2.net) (by rw [dollar_type]; exact h2.anch)
        (by rw [dollar_host]; exact h2.host) h1

/-- all other lines are read -/
theorem line_ok (bad : List Bytes) {line : Bytes} (hclean : ∀ c ∈ line, c ≠ 0 ∧ c ≠ 10 ∧ c ≠ 13) (h1 : ¬ NoText line)
    (h2 : ¬ TextTooShort line) (pr full : Bool) :
    ∃ f e, parseFilter bad line 0 pr full = .ok (f, e) ∧ ∃ cl, classify bad f = .ok cl := by
  have ht : Term 0 := .inl rfl
  obtain ⟨o, ho⟩ := parseLoop_ok line ht pr line 0 {}
  have h0 : 0 ∉ line := fun h => (hclean 0 h).1 rfl
  have hpost := parseLoop_facts ht h0 ho
  have ret : ∀ {f}, o = .ret f → parseFilter bad line 0 pr full = .ok (f, .none) := by
    rintro f rfl
    unfold parseFilter; rw [ho]; rfl
  have fin : ∀ {s}, o = .fin s → (has s.f.filterType FTHostAnchored = true → ∀ h, s.f.host = some h → h.length ≤ s.data.length) →
      ∃ f e, parseFilter bad line 0 pr full = .ok (f, e) ∧ ∃ cl, classify bad f = .ok cl := by
    rintro s rfl hle
    have hpf : parseFilter bad line 0 pr full = finishFilter bad line pr full s := by unfold parseFilter; rw [ho]; rfl
    by_cases hs : s.st = .start
    · exact ⟨{ s.f with filterType := FTEmpty }, .none, by rw [hpf]; simp [finishFilter, hs], .drop, classify_idle (.inl rfl)⟩
    · have hr := result_facts hpost hs line pr
      obtain ⟨fp, hfp⟩ := getFingerprint_ok bad hr.1 (fun h => absurd h hr.2) (by
        intro ha h pat hh hd
        have := hle ha h hh
        have e4 : cstr s.data = cstr pat := Option.some.inj hd
        have := congrArg List.length e4
        simp [cstr] at this
        omega)
      obtain ⟨e, hfin⟩ := finishWith_ok (full := full) hfp
      exact ⟨s.result line pr, e, by rw [hpf, finishFilter_eq _ _ _ _ hs]; exact hfin, classify_ok hfp⟩
  rcases line_outcome ht hclean ho with hn | ⟨a, kept, body, rest, s, hl, ha, hout⟩
  · cases o with
    | fin s => exact fin rfl fun h => by rw [show has s.f.filterType FTHostAnchored = false from hn] at h; cases h
    | ret f =>
      have hp := (parseFilter_facts ht h0 (ret rfl)).1
      obtain ⟨fp, hfp⟩ := getFingerprint_ok bad hp (fun _ => hn) (fun h => by rw [show has f.filterType FTHostAnchored = false from hn] at h; cases h)
      exact ⟨f, _, ret rfl, classify_ok hfp⟩
  · cases hout with
    | fin hr hlen =>
      refine fin rfl fun _ h hh => ?_
      rw [ha.host] at hh
      cases hh
      rw [ha.data]
      exact Nat.le_of_not_lt fun hlt => h2 ⟨a, kept, body, rest, hl, .inl ⟨hr, by rw [hl.line, hr, List.append_nil]; exact hlen⟩, hlt⟩
    | @opts o hr ho' hlen =>
      refine fin rfl fun _ h hh => ?_
      rw [dollar_host, ha.host] at hh
      cases hh
      show _ ≤ s.data.length
      rw [ha.data]
      exact Nat.le_of_not_lt fun hlt => h2 ⟨a, kept, body, rest, hl, .inr ⟨⟨o, hr, ho'⟩, hlen⟩, hlt⟩
    | long hr hlen =>
      refine ⟨s.f, .none, ret rfl, ?_⟩
      have hu : s.f.hasUnsupportedOptions = false := by unfold Filter.hasUnsupportedOptions; rw [ha.opt]; decide
      rw [classify_kind bad hu (kind_of_net ha.net)]
      by_cases hho : has s.f.filterType FTHostOnly = true
      · rw [if_pos hho]; exact ⟨_, rfl⟩
      · rw [if_neg hho]
        by_cases hh : barHost (body ++ rest) = []
        · rw [fingerprint_empty bad (by rw [ha.host, hh]) ha.none]; exact ⟨_, rfl⟩
        · exact absurd ⟨a, kept, body, rest, hl, hr, hlen, hh, fun h => hho (ha.only.2 h)⟩ h1

theorem overflow_strip (bad : List Bytes) {f g : Filter} (h : f.strip = g.strip) : DomainsOverflow bad f ↔ DomainsOverflow bad g := by
  have e : ∀ f : Filter, DomainsOverflow bad f ↔ DomainsOverflow bad f.strip := fun f => Iff.rfl
  rw [e, e g, h]

/-- the two passes over a line -/
theorem passes_iff (E : Env) (pr : Bool) (b : Build E) {line : Bytes} (hclean : ∀ c ∈ line, c ≠ 0 ∧ c ≠ 10 ∧ c ≠ 13) :
    (∃ cl, lineClass E.bad (line, 0) = .ok cl) ∧ (∃ b', fillLine E pr b (line, 0) = .ok b') ↔ Loadable E.bad line := by
  have h0 : 0 ∉ line := fun h => (hclean 0 h).1 rfl
  by_cases h1 : NoText line
  · rw [(line_ub E.bad hclean).1 h1]
    exact ⟨fun ⟨⟨_, h⟩, _⟩ => (by cases h), fun h => absurd h1 h.text⟩
  by_cases h2 : TextTooShort line
  · rw [(line_ub E.bad hclean).2 h2]
    exact ⟨fun ⟨⟨_, h⟩, _⟩ => (by cases h), fun h => absurd h2 h.host⟩
  obtain ⟨f, e, hf, hcl⟩ := line_ok E.bad hclean h1 h2 pr true
  obtain ⟨g, e', hg, -⟩ := line_ok E.bad hclean h1 h2 false true
  have hfirst : ∃ cl, lineClass E.bad (line, 0) = .ok cl := by
    obtain ⟨f, e, hf, hcl⟩ := line_ok E.bad hclean h1 h2 false false
    unfold lineClass
    rw [hf, Res.bind_ok]
    exact hcl
  have hs : f.strip = g.strip := by
    have := parseFilter_preserve E.bad line 0 pr true
    rw [hf, hg] at this
    simp only [Res.map_ok, Res.ok.injEq, stripPair, Prod.mk.injEq] at this
    exact this.1
  have hd : DomainTooLong E.bad line ↔ DomainsOverflow E.bad f := by
    rw [overflow_strip E.bad hs]
    constructor
    · rintro ⟨f', e'', h, h'⟩
      rw [hg] at h
      cases h
      exact h'
    · exact fun h => ⟨g, e', hg, h⟩
  rw [fillLine_iff pr b h0 hf, ← hd]
  exact ⟨fun h => ⟨h1, h2, h.2.2⟩, fun h => ⟨hfirst, hcl, h.domains⟩⟩

theorem passes_all (E : Env) (pr : Bool) {ls : List Bytes} (hclean : ∀ line ∈ ls, ∀ c ∈ line, c ≠ 0 ∧ c ≠ 10 ∧ c ≠ 13) (b : Build E) (n : Counts) :
    (∃ n', countPass E.bad (nul ls) n = .ok n') ∧ (∃ b', fill E pr (nul ls) b = .ok b') ↔ ∀ line ∈ ls, Loadable E.bad line := by
  induction ls generalizing b n with
  | nil => exact ⟨fun _ _ h => (by cases h), fun _ => ⟨⟨n, rfl⟩, b, rfl⟩⟩
  | cons l ls ih =>
    rw [List.forall_mem_cons] at hclean ⊢
    rw [← passes_iff E pr b hclean.1]
    have ih := ih hclean.2
    simp only [nul, List.map_cons, fill] at ih ⊢
    rw [countPass_cons]
    cases h1 : lineClass E.bad (l, 0) with
    | ub u => exact ⟨fun ⟨⟨_, h⟩, _⟩ => (by cases h), fun ⟨⟨⟨_, h⟩, _⟩, _⟩ => (by cases h)⟩
    | ok cl =>
      rw [Res.bind_ok]
      cases h2 : fillLine E pr b (l, 0) with
      | ub u => exact ⟨fun ⟨_, _, h⟩ => (by cases h), fun ⟨⟨_, _, h⟩, _⟩ => (by cases h)⟩
      | ok b1 =>
        rw [Res.bind_ok, ih b1 (n.bump cl)]
        exact ⟨fun h => ⟨⟨⟨_, rfl⟩, _, rfl⟩, h⟩, fun h => h.2⟩

end AdBlock
