import Verif.Lemmas.OddRule
import Verif.Props.Options
import Verif.Props.Fingerprint
/-!
Properties of the parsing of one line: C22 (rule text), C18 (comments and blank lines),
C42 (over-long lines), C43 (preserved text).
-/
namespace AdBlock
open Spec

/-! ### C22: the rule text determines the rule -/

section
variable {r : RuleText} (hw : r.Usual)
include hw

theorem anchoredHost_rule : anchoredHost (r.text ++ r.trailer) = r.hostPart := by
  obtain ⟨rest, he, hr, hns⟩ := takeWhile_split r.text
  have hH : r.text.takeWhile (fun c => decide (¬ IsSep c)) = r.hostPart := by unfold RuleText.hostPart; rw [hw.odd]
  rw [hH] at he hns
  generalize r.hostPart = h at he hns
  have hlast : ∀ q : Bytes, h.length > 0 → (h ++ q).getD (h.length - 1) 0 ≠ ch%'|' := by
    intro q hl
    have hmem : (h ++ q).getD (h.length - 1) 0 ∈ r.text := by
      rw [List.getD_eq_getElem?_getD, List.getElem?_append_left (by omega),
        List.getElem?_eq_getElem (by omega), Option.getD_some, he]
      exact List.mem_append_left _ (List.getElem_mem _)
    exact (hw.plain _ hmem).2.2.2.1
  have main : ∀ q : Bytes, (q = [] ∨ ∃ c r, q = c :: r ∧ IsSep c) → anchoredHost (h ++ q) = h := by
    intro q hq
    have hf := findFirstSeparatorChar_spec hns hq
    have hc : (decide (h.length > 0) && (h ++ q).getD (h.length - 1) 0 == ch%'|') = false := by
      by_cases hl : h.length > 0
      · simpa [hl] using hlast q hl
      · simp [hl]
    unfold anchoredHost
    simp only [hf, hc]
    simp
  rcases hr with rfl | ⟨c, q, rfl, hc⟩
  · simp only [List.append_nil] at he
    have hopt : ∀ o : Option Bytes, RuleText.optionText o = [] ∨
        ∃ c r, RuleText.optionText o = c :: r ∧ IsSep c := by
      intro o
      cases o with
      | none => exact .inl rfl
      | some o => exact .inr ⟨_, _, rfl, by decide⟩
    rw [he]
    unfold RuleText.trailer
    by_cases hb : r.rightBar = true
    · simp only [hb, ↓reduceIte]
      have hns' : ∀ c ∈ h ++ bs%"|", ¬ IsSep c := by
        intro c hc
        rcases List.mem_append.1 hc with hc | hc
        · exact hns c hc
        · simp only [List.mem_cons, List.not_mem_nil, or_false] at hc; subst hc; decide
      have hf := findFirstSeparatorChar_spec hns' (hopt r.options)
      rw [← List.append_assoc]
      unfold anchoredHost
      simp only [hf]
      rw [List.append_assoc, List.length_append]
      have e1 : (h ++ (bs%"|" ++ RuleText.optionText r.options)).getD
          (h.length + [(124 : Byte)].length - 1) 0 = ch%'|' := by
        simp [List.getD_eq_getElem?_getD]
      rw [e1]
      simp
    · simp only [hb, Bool.false_eq_true, ↓reduceIte, List.nil_append]
      exact main _ (hopt r.options)
  · rw [he, List.append_assoc, List.cons_append]
    exact main _ (.inr ⟨c, _, rfl, hc⟩)

theorem hostOnlyCheck_rule {t : Byte} (ht : t = 0 ∨ t = 10 ∨ t = 13) (ha : r.anchor = .host) :
    hostOnlyCheck (r.text ++ r.trailer) t r.hostPart.length = .ok (decide r.HostOnly) := by
  suffices h : ∃ b, hostOnlyCheck (r.text ++ r.trailer) t r.hostPart.length = .ok b ∧
      (b = true ↔ r.HostOnly) by
    obtain ⟨b, h1, h2⟩ := h
    rw [h1, Res.ok.injEq]
    cases b <;> simp_all
  obtain ⟨rest, he, hr, hns⟩ := takeWhile_split r.text
  have hH : r.text.takeWhile (fun c => decide (¬ IsSep c)) = r.hostPart := by unfold RuleText.hostPart; rw [hw.odd]
  have htE : endsHost t = true := by rcases ht with rfl | rfl | rfl <;> decide
  have hd : (r.trailer ++ [t]).head?.map endsHost = some (!r.rightBar) := by
    unfold RuleText.trailer RuleText.optionText
    cases r.rightBar <;> cases r.options <;> simp [htE] <;> decide
  obtain ⟨d, q, hdq⟩ : ∃ d q, r.trailer ++ [t] = d :: q := by
    cases h : r.trailer ++ [t] with
    | nil => simp at h
    | cons d q => exact ⟨d, q, rfl⟩
  rw [hdq] at hd
  simp only [List.head?_cons, Option.map_some, Option.some.injEq] at hd
  have hdc : d ≠ ch%'^' := by
    have : d ∈ r.trailer ++ [t] ∧ (r.trailer ++ [t]).head? = some d := by rw [hdq]; simp
    revert this
    unfold RuleText.trailer RuleText.optionText
    cases r.rightBar <;> cases r.options <;> simp
    · rintro - rfl; rcases ht with rfl | rfl | rfl <;> decide
    · rintro - rfl; decide
    · rintro - rfl; decide
    · rintro - rfl; decide
  have hW : r.written = r.text := by unfold RuleText.written; rw [hw.odd]
  unfold RuleText.HostOnly
  rw [hW, hw.odd]
  simp only [forall_const]
  rw [hH] at he hns
  have hplain := hw.plain
  generalize hh : r.hostPart = h at he hns
  unfold hostOnlyCheck
  rw [List.append_assoc, hdq]
  rcases hr with rfl | ⟨c, rr, rfl, hc⟩
  · simp only [List.append_nil] at he
    rw [he, rd_append_length]
    simp only [Res.bind_ok, Res.pure_eq, ha, beq_iff_eq, hdc, ↓reduceIte, hd, true_or, true_and, and_true]
    exact ⟨_, rfl, by simp⟩
  · have hne : r.text ≠ h := by rw [he]; intro e; have := congrArg List.length e; simp at this
    have hcp := hplain c (by rw [he]; simp)
    have hrr : ∀ x ∈ rr, endsHost x = false := by
      intro x hx
      have hp := hplain x (by rw [he]; simp [hx])
      simp [endsHost, isEndOfLine, hp]
    rw [he] at hne
    rw [he, List.append_assoc, List.cons_append, rd_append_length]
    by_cases hcar : c = ch%'^'
    · subst hcar
      have hidx : rd (h ++ (94 :: (rr ++ d :: q))) (h.length + 1) = rd (rr ++ d :: q) 0 := by
        simp only [rd]
        rw [List.getElem?_append_right (by omega)]
        simp
      simp only [Res.bind_ok, beq_self_eq_true, ↓reduceIte, hidx, ha, hne, false_or, true_and]
      cases rr with
      | nil =>
        simp only [List.nil_append, rd_cons_zero, Res.bind_ok, Res.pure_eq, hd, and_true]
        exact ⟨_, rfl, by simp [show endsHost 94 = false from rfl]⟩
      | cons x rr =>
        have := hrr x (by simp)
        have e2 : ¬ (h ++ 94 :: x :: rr = h ++ [94]) := by simp
        simp only [List.cons_append, rd_cons_zero, Res.bind_ok, Res.pure_eq, this, e2, and_false]
        exact ⟨_, rfl, by decide⟩
    · have e1 : endsHost c = false := by simp [endsHost, isEndOfLine, hcp]
      have e2 : ¬ (h ++ c :: rr = h ++ [94]) := by simp [hcar]
      simp only [Res.bind_ok, beq_iff_eq, hcar, ↓reduceIte, e1, Res.pure_eq, hne, e2, or_self, and_false]
      exact ⟨_, rfl, by decide⟩

end

theorem usual_line {r : RuleText} (hw : r.Usual) : r.line = r.indent ++ (r.marks ++ r.text ++ r.trailer) := by
  unfold RuleText.line RuleText.body
  rw [hw.odd]

theorem trailer_head (r : RuleText) : r.trailer.head? ≠ some ch%'#' ∧ r.trailer.head? ≠ some ch%'@' := by
  unfold RuleText.trailer RuleText.optionText
  cases r.rightBar <;> cases r.options <;> simp

section
variable {r : RuleText} (hw : r.Usual) (line : Bytes) {t : Byte} (ht : t = 0 ∨ t = 10 ∨ t = 13) (pr : Bool)

theorem loop_exception (rest : Bytes) (n : Nat) (hl : n + 2 ≤ 2047) (ex : Bool) :
    parseLoop line t pr ((if ex then bs%"@@" else []) ++ rest) n { ruleStart := n, ruleEnd := n } =
      parseLoop line t pr rest (n + if ex then 2 else 0)
        { st := if ex then .pastWhitespace else .start
          f := { filterType := if ex then FTException else 0 }
          ruleStart := n, ruleEnd := n + if ex then 2 else 0 } := by
  cases ex
  · simp
  · simp only [↓reduceIte]
    rw [List.cons_append, loop_at line t pr _ n _ rfl (by omega), List.cons_append,
      loop_at2 line t pr _ _ _ rfl (by omega), List.nil_append]

include hw ht in
theorem loop_anchor_text (n : Nat) (st : FPState) (hst : st.fresh = true) (m : Nat)
    (hl : n + r.anchor.mark.length + r.text.length ≤ 2047)
    (hline : line = r.line) :
    parseLoop line t pr (r.anchor.mark ++
        (r.text ++ r.trailer)) n
        { st := st, f := { filterType := if r.exception then FTException else 0 }, ruleStart := m, ruleEnd := n } =
      parseLoop line t pr r.trailer
        (n + r.anchor.mark.length + r.text.length)
        { st := .data, f := r.core, data := r.text, ruleStart := m
          ruleEnd := n + r.anchor.mark.length + r.text.length } := by
  have hplain : ∀ c ∈ r.text, c ≠ ch%'|' ∧ c ≠ ch%'$' := fun c hc =>
    ⟨(hw.plain c hc).2.2.2.1, (hw.plain c hc).2.2.2.2⟩
  have hno : r.anchor ≠ .host → ¬ r.HostOnly := fun h h' => h h'.1
  cases ha : r.anchor with
  | none =>
    rw [ha] at hl
    simp only [Anchor.mark, List.length_nil, List.nil_append, Nat.add_zero] at hl ⊢
    obtain ⟨c, text, hc⟩ : ∃ c text, r.text = c :: text := by
      cases h : r.text with
      | nil => exact absurd h hw.nonempty
      | cons c text => exact ⟨c, text, rfl⟩
    have hf := hw.first ha c (by rw [hc]; rfl)
    have hp := hw.plain c (by rw [hc]; simp)
    have hcore : r.core = { filterType := if r.exception then FTException else 0 } := by
      simp [RuleText.core, Anchor.mask, ha, hno (by rw [ha]; simp)]
    rw [hc] at hl hplain ⊢
    simp only [List.length_cons] at hl
    rw [List.cons_append, loop_first_char line t pr c _ n _ hst (by omega)
      ⟨hp.2.2.2.1, hp.2.2.2.2⟩ ⟨hf.1, hf.2.1, hp.2.1, hp.2.2.1⟩ (by rw [hline]; exact hf.2.2)]
    rw [loop_text line t pr text r.trailer (n + 1) _ rfl (by omega)
      (fun c hc => hplain c (by simp [hc]))
      (fun a d b e => hw.hash (c :: a) d b (by rw [hc, e]; rfl)) (trailer_head r)]
    simp only [PLocals.push, List.nil_append, List.length_cons, hcore, List.cons_append]
    congr 1
    · omega
    · simp only [PLocals.mk.injEq, true_and]; omega
  | left =>
    rw [ha] at hl
    simp only [Anchor.mark, List.length_nil, List.length_cons] at hl ⊢
    have hcore : r.core = ({ filterType := if r.exception then FTException else 0 } : Filter).addType FTLeftAnchored := by
      simp [RuleText.core, Anchor.mask, ha, hno (by rw [ha]; simp), Filter.addType]
    obtain ⟨c, text, hc⟩ : ∃ c text, r.text = c :: text := by
      cases h : r.text with
      | nil => exact absurd h hw.nonempty
      | cons c text => exact ⟨c, text, rfl⟩
    have hlen : 1 ≤ r.text.length := by rw [hc]; simp
    rw [List.cons_append, loop_bar line t pr _ n _ hst (by omega), List.nil_append]
    have h1 : parseLoop line t pr (r.text ++ r.trailer) (n + 1)
        { st := .oneBar, f := { filterType := if r.exception then FTException else 0 },
          ruleStart := m, ruleEnd := n + 1 } =
        parseLoop line t pr (r.text ++ r.trailer) (n + 1) { st := .data, f := r.core, ruleStart := m, ruleEnd := n + 1 } := by
      rw [hcore, hc, List.cons_append]
      rcases loop_oneBar line t pr c (text ++ r.trailer) (n + 1)
        { st := .oneBar, f := { filterType := if r.exception then FTException else 0 },
          ruleStart := m, ruleEnd := n + 1 } rfl (hplain c (by rw [hc]; simp)).1 with h | h
      · exact h
      · omega
    rw [h1, loop_text line t pr r.text r.trailer (n + 1) _ rfl (by omega) hplain hw.hash (trailer_head r)]
    simp only [List.nil_append]
  | host =>
    rw [ha] at hl
    simp only [Anchor.mark, List.length_nil, List.length_cons] at hl ⊢
    rw [List.cons_append, loop_bar line t pr _ n _ hst (by omega), List.cons_append, List.nil_append,
      loop_bar2 line t pr _ _ _ rfl (by have := List.length_pos_iff.2 hw.nonempty; omega)]
    have hsec : secondBar
        (PLocals.mk .oneBar { filterType := if r.exception then FTException else 0 } [] m (n + 1))
        (r.text ++ r.trailer) t =
        .ok { st := .data, f := r.core, ruleStart := m, ruleEnd := n + 2 } := by
      simp only [secondBar, anchoredHost_rule hw, hostOnlyCheck_rule hw ht ha, Res.bind_ok]
      by_cases hh : r.HostOnly <;> simp [hh, RuleText.core, Anchor.mask, ha, Filter.addType]
    rw [hsec, Res.bind_ok, loop_text line t pr r.text r.trailer (n + 2) _ rfl (by omega) hplain hw.hash (trailer_head r)]
    simp only [List.nil_append]

end

theorem loop_trailer {r : RuleText} (hw : r.Usual) (t : Byte) (pr : Bool) (pos : Nat) (s : PLocals)
    (hs : s.st = .data) (hf : s.f = r.core) (he : s.ruleEnd = pos) (hd : r.line.drop pos = r.trailer)
    (hl : pos + r.trailer.length = r.line.length) :
    parseLoop r.line t pr r.trailer pos s =
      .ok (.fin { s with f := r.bare, ruleEnd := r.line.length }) := by
  have hshort := hw.short
  have main := fun pos s (hs : s.st = .data) hf he hd hl => loop_close hw.opts t pr pos s (.inl hs) hf he hd hl hw.short
  have hopt : (r.options.getD []).length ≤ (RuleText.optionText r.options).length := by cases r.options <;> simp [RuleText.optionText]
  unfold RuleText.Short at hshort
  unfold RuleText.trailer at hd hl ⊢
  by_cases hb : r.rightBar = true
  · simp only [hb, ↓reduceIte, List.cons_append, List.nil_append, List.length_cons] at hd hl ⊢
    rw [loop_rightBar r.line t pr _ pos s hs (by omega)]
    rw [main (pos + 1) { s with f := s.f.addType FTRightAnchored, ruleEnd := s.ruleEnd + 1 } hs
      (by simp [hb, hf]) (by simp [he]) ?_ (by omega)]
    have := congrArg (List.drop 1) hd
    simpa [List.drop_drop] using this
  · simp only [hb, Bool.false_eq_true, ↓reduceIte, List.nil_append] at hd hl ⊢
    exact main pos s hs (by simp [hb, hf]) he hd hl

theorem loop_rule {r : RuleText} (hw : r.Usual) {t : Byte} (ht : t = 0 ∨ t = 10 ∨ t = 13) (pr : Bool) :
    parseLoop r.line t pr r.line 0 {} =
      .ok (.fin { st := .data, f := r.bare, data := r.text, ruleStart := r.indent.length, ruleEnd := r.line.length }) := by
  have hlen : r.line.length = r.indent.length + (if r.exception then 2 else 0) +
      r.anchor.mark.length + r.text.length + r.trailer.length := by
    simp only [usual_line hw, RuleText.marks, List.length_append]
    cases r.exception <;> cases r.anchor <;> simp [Anchor.mark] <;> omega
  have hshort := hw.short
  have htext := List.length_pos_iff.2 hw.nonempty
  have hopt : (r.options.getD []).length ≤ r.trailer.length := by
    unfold RuleText.trailer
    cases r.options <;> simp [RuleText.optionText]
    omega
  unfold RuleText.Short at hshort
  have hdecomp : r.line = r.indent ++ ((if r.exception then bs%"@@" else []) ++
      (r.anchor.mark ++ (r.text ++ r.trailer))) := by
    simp only [usual_line hw, RuleText.marks, List.append_assoc]
  have h1 : parseLoop r.line t pr (r.indent ++ ((if r.exception then bs%"@@" else []) ++
      (r.anchor.mark ++ (r.text ++ r.trailer)))) 0 {} =
      parseLoop r.line t pr ((if r.exception then bs%"@@" else []) ++
      (r.anchor.mark ++ (r.text ++ r.trailer)))
        r.indent.length { ruleStart := r.indent.length, ruleEnd := r.indent.length } := by
    rw [loop_indent r.line t pr r.indent _ 0 {} rfl hw.indent (by omega)]
    simp
  have h2 : parseLoop r.line t pr ((if r.exception then bs%"@@" else []) ++
      (r.anchor.mark ++ (r.text ++ r.trailer)))
        r.indent.length { ruleStart := r.indent.length, ruleEnd := r.indent.length } =
      parseLoop r.line t pr (r.anchor.mark ++
        (r.text ++ r.trailer)) (r.indent.length + if r.exception then 2 else 0)
        { st := if r.exception then .pastWhitespace else .start
          f := { filterType := if r.exception then FTException else 0 }
          ruleStart := r.indent.length, ruleEnd := r.indent.length + if r.exception then 2 else 0 } := by
    cases hx : r.exception with
    | false => simp
    | true => rw [hx] at hlen; exact loop_exception r.line pr _ _ (by simp only [↓reduceIte] at hlen; omega) true
  conv => lhs; rw [show parseLoop r.line t pr r.line 0 {} = parseLoop r.line t pr (r.indent ++ ((if r.exception then bs%"@@" else []) ++
      (r.anchor.mark ++ (r.text ++ r.trailer)))) 0 {} by
        rw [← hdecomp]]
  have hd : r.line = (r.indent ++ ((if r.exception then bs%"@@" else []) ++
      (r.anchor.mark ++ r.text))) ++ r.trailer := by
    rw [hdecomp]; simp only [List.append_assoc]
  have hn : r.indent.length + (if r.exception then 2 else 0) + r.anchor.mark.length + r.text.length =
      (r.indent ++ ((if r.exception then bs%"@@" else []) ++ (r.anchor.mark ++ r.text))).length := by
    cases r.exception <;> cases r.anchor <;> simp [Anchor.mark] <;> omega
  have hdrop : r.line.drop (r.indent.length + (if r.exception then 2 else 0) + r.anchor.mark.length + r.text.length) =
      r.trailer := by
    rw [hd, hn]; exact List.drop_left
  rw [h1, h2, loop_anchor_text hw r.line ht pr _ _ (by cases r.exception <;> rfl) _ (by omega) rfl]
  exact loop_trailer hw t pr _ (PLocals.mk .data r.core r.text r.indent.length _) rfl rfl rfl hdrop (by omega)

theorem kind_bits (r : RuleText) :
    has r.kind FTException = r.exception ∧ has r.kind FTHostOnly = decide r.HostOnly ∧
    has r.kind FTHostAnchored = decide (r.anchor = .host) ∧ has r.kind FTRegex = false ∧
    has r.kind FTLeftAnchored = decide (r.anchor = .left) ∧ has r.kind FTRightAnchored = r.rightBar ∧
    r.kind ≠ FTElementHiding ∧ r.kind ≠ FTElementHidingException := by
  unfold RuleText.kind
  by_cases hh : r.HostOnly <;> cases r.exception <;> cases r.anchor <;> cases r.rightBar <;>
    simp only [hh, ↓reduceIte, Bool.false_eq_true, Anchor.mask] <;> decide

theorem hostPart_le {r : RuleText} (hw : r.WellFormed) (ha : r.anchor = .host) : r.hostPart.length ≤ r.text.length := by
  cases hw with
  | usual h =>
    unfold RuleText.hostPart
    rw [h.odd]
    exact (List.takeWhile_prefix _).length_le
  | odd _ h => exact h.host ha

theorem rule_line_clean {r : RuleText} (hw : r.WellFormed) : ∀ c ∈ r.line, c ≠ 0 ∧ c ≠ 10 ∧ c ≠ 13 := by
  cases hw with
  | odd _ h => exact h.clean
  | usual hw =>
    intro c hc
    have small : ∀ l : Bytes, (l.all fun c => c != 0 && c != 10 && c != 13) = true → c ∈ l → c ≠ 0 ∧ c ≠ 10 ∧ c ≠ 13 := by
      intro l hl hc
      rw [List.all_eq_true] at hl
      have := hl c hc
      simp only [Bool.and_eq_true, bne_iff_ne] at this
      exact ⟨this.1.1, this.1.2, this.2⟩
    rw [usual_line hw] at hc
    unfold RuleText.marks RuleText.trailer at hc
    simp only [List.mem_append] at hc
    rcases hc with hc | ((hc | hc) | hc) | hc | hc
    · rcases hw.indent c hc with rfl | rfl <;> decide
    · split at hc
      · exact small _ (by decide) hc
      · cases hc
    · revert hc
      cases r.anchor <;> intro hc <;> exact small _ (by decide) hc
    · have := hw.plain c hc; exact ⟨this.1, this.2.1, this.2.2.1⟩
    · split at hc
      · exact small _ (by decide) hc
      · cases hc
    · cases ho : r.options with
      | none => rw [ho] at hc; cases hc
      | some o =>
        rw [ho] at hc
        rcases List.mem_cons.1 hc with rfl | hc
        · decide
        · exact (hw.opts o ho).1 c hc

/-- every character of the text is in the line -/
theorem text_mem {r : RuleText} (hw : r.WellFormed) : ∀ c ∈ r.text, c ∈ r.line := by
  intro c hc
  cases hw with
  | usual h => rw [usual_line h]; simp [hc]
  | @odd w ho h =>
    obtain ⟨kept, hop, ht⟩ := h.opening
    rw [ht, List.mem_append] at hc
    rw [odd_line ho]
    rcases hc with hc | hc
    · have : c ∈ r.indent ++ w.lead := by
        generalize r.exception = ex at hop
        cases hop with
        | host hl _ => exact lead_kept hl c hc
        | left hl _ _ _ => exact lead_kept hl c hc
        | plain hl _ _ _ _ _ => exact lead_kept hl c hc
        | oneAt hl e _ _ _ =>
          rw [e]
          rcases List.mem_append.1 hc with hc | hc
          · have := lead_kept hl c hc
            simp only [List.mem_append] at this ⊢
            rcases this with h | h
            · exact .inl h
            · exact .inr (.inl h)
          · simp [hc]
        | oneBar hl e _ _ _ =>
          rw [e]
          have := lead_kept hl c hc
          simp only [List.mem_append] at this ⊢
          rcases this with h | h
          · exact .inl h
          · exact .inr (.inl h)
      simp only [List.mem_append] at this ⊢
      exact .inl (.inl (.inl this))
    · have := (List.mem_filter.1 hc).1
      simp [this]

theorem text_length {r : RuleText} (hw : r.WellFormed) : r.text.length ≤ r.line.length := by
  cases hw with
  | usual h => rw [usual_line h]; simp only [List.length_append]; omega
  | @odd w ho h =>
    obtain ⟨kept, hop, ht⟩ := h.opening
    have hk : kept.length ≤ (r.indent ++ w.lead).length := by
      generalize r.exception = ex at hop
      cases hop with
      | host hl _ => exact lead_length hl
      | left hl _ _ _ => exact lead_length hl
      | plain hl _ _ _ _ _ => exact lead_length hl
      | oneAt hl e _ _ _ =>
        have := lead_length hl
        rw [e]
        simp only [List.length_append, List.length_cons] at this ⊢
        omega
      | oneBar hl e _ _ _ =>
        have := lead_length hl
        rw [e]
        simp only [List.length_append, List.length_cons] at this ⊢
        omega
    have := List.length_filter_le (· ≠ ch%'|') w.raw
    rw [ht, odd_line ho]
    simp only [List.length_append] at hk ⊢
    omega

theorem options_length {r : RuleText} {o : Bytes} (h : r.options = some o) : o.length < r.line.length := by
  unfold RuleText.line RuleText.body RuleText.trailer
  rw [h]
  cases r.odd <;> simp only [RuleText.optionText, List.length_append, List.length_cons] <;> omega

theorem Spec.RuleText.WellFormed.noNul {r : RuleText} (hw : r.WellFormed) : 0 ∉ r.text :=
  fun h => (rule_line_clean hw 0 (text_mem hw 0 h)).1 rfl

theorem Spec.RuleText.WellFormed.opts {r : RuleText} (hw : r.WellFormed) :
    ∀ o, r.options = some o → (∀ c ∈ o, c ≠ 0 ∧ c ≠ 10 ∧ c ≠ 13) ∧ o.head? ≠ some ch%'$' := by
  cases hw with
  | usual h => exact h.opts
  | odd ho h => exact odd_opts ho h

theorem filter_hasText {r : RuleText} (hw : r.WellFormed) (pr : Bool) : HasText (r.filter pr) r.text :=
  ⟨hw.noNul, ⟨[], rfl⟩, .inl rfl⟩

/-- the loop on the line of a rule -/
theorem loop_line {r : RuleText} (hw : r.WellFormed) {t : Byte} (ht : t = 0 ∨ t = 10 ∨ t = 13) (pr : Bool) :
    ∃ st, st ≠ .start ∧ parseLoop r.line t pr r.line 0 {} =
      .ok (.fin { st := st, f := r.bare, data := r.text, ruleStart := r.indent.length, ruleEnd := r.line.length }) := by
  cases hw with
  | usual h => exact ⟨.data, by simp, loop_rule h ht pr⟩
  | odd ho h => exact loop_odd ho h ht pr

/-- **C22**: parsing a line built from leading white space, an exception prefix, anchors, a
pattern text, a right bar and options yields exactly the rule with these constituents
(`RuleText.filter`), whatever ends the line, and enters it where `RuleText.effect` says,
with the fingerprint that C16 describes. -/
theorem C22_rule_text (bad : List Bytes) {r : RuleText} (hw : r.WellFormed) {t : Byte}
    (ht : t = 0 ∨ t = 10 ∨ t = 13) (preserve full : Bool) :
    ∃ fp, getFingerprint bad (r.filter preserve) = .ok fp ∧
      parseFilter bad r.line t preserve full = .ok (r.filter preserve, r.effect full fp) := by
  obtain ⟨k1, k2, k3, k4, _, _, k5, k6⟩ := kind_bits r
  have htext := filter_hasText hw preserve
  have hkind : (r.filter preserve).filterType = r.kind := rfl
  obtain ⟨fp, hfp⟩ : ∃ fp, getFingerprint bad (r.filter preserve) = .ok fp := by
    have := C16_rule_fingerprint bad (r.filter preserve) r.text htext (by rw [hkind]; exact k4)
    by_cases ha : r.anchor = .host
    · exact ⟨_, this.2 r.hostPart (by rw [hkind, k3]; simpa using ha) (by simp [RuleText.filter, ha]) (hostPart_le hw ha)⟩
    · exact ⟨_, this.1 (by rw [hkind, k3]; simpa using ha)⟩
  refine ⟨fp, hfp, ?_⟩
  unfold parseFilter
  obtain ⟨st, hst, hloop⟩ := loop_line hw ht preserve
  rw [hloop]
  simp only [Res.bind_ok]
  rw [finishFilter_eq bad _ _ _ hst]
  have hbody : (r.line.drop r.indent.length).take (r.line.length - r.indent.length) = r.body := by
    simp [RuleText.line]
  have hf : PLocals.result { st := st, f := r.bare, data := r.text, ruleStart := r.indent.length, ruleEnd := r.line.length }
      r.line preserve = r.filter preserve := by
    cases preserve <;> simp [PLocals.result, RuleText.bare, RuleText.filter, hbody]
  rw [hf]
  simp only [finishWith, hkind, k5, k6, k1, k2, hfp, Res.bind_ok, ↓reduceIte]
  unfold RuleText.effect
  cases full
  · cases fp <;> simp
  · cases hx : r.exception <;> by_cases hh : r.HostOnly <;> cases fp <;> simp [hh]

/-- the rule `@@||ads.com/x*y|$script,domain=a.com|~b.a.com`, indented -/
def exampleRule : RuleText where
  indent := bs%"  "
  exception := true
  anchor := .host
  text := bs%"ads.com/x*y"
  rightBar := true
  options := some bs%"script,domain=a.com|~b.a.com"

/-- it meets the hypothesis of `C22_rule_text`; its line and constituents are as expected -/
example : exampleRule.Usual where
  odd := rfl
  indent := by decide
  nonempty := by decide
  plain := by decide
  hash := by
    intro a d b h
    have : ch%'#' ∈ exampleRule.text := by rw [h]; simp
    exact absurd this (by decide)
  first := by intro h; cases h
  opts := by
    intro o ho
    cases ho
    decide
  short := by decide

example : exampleRule.line = bs%"  @@||ads.com/x*y|$script,domain=a.com|~b.a.com" ∧
    exampleRule.hostPart = bs%"ads.com" ∧ exampleRule.opts.domainList = some bs%"a.com|~b.a.com" ∧
    exampleRule.opts.filterOption = FOScript := by decide +kernel

/-- a rule written in an unusual way -/
def exampleOdd : RuleText where
  indent := bs%" "
  exception := true
  anchor := .host
  text := bs%"[ ads.com/xy"
  rightBar := true
  options := some bs%"image"
  odd := some ⟨bs%"@[@ ", bs%"ads.com/x|y"⟩

/-- it meets the hypothesis of `C22_rule_text`, too -/
example : exampleOdd.line = bs%" @[@ ||ads.com/x|y$image" ∧ exampleOdd.hostPart = bs%"ads.com" ∧ ¬ exampleOdd.HostOnly ∧
    exampleOdd.WellFormed := by
  refine ⟨by decide +kernel, by decide +kernel, by decide +kernel, .odd rfl ?_⟩
  exact {
    indent := by decide
    lead := by decide
    opening := ⟨bs%"[ ", .host (.ats (a := bs%" ") (mid := bs%"[") (tail := bs%" ") (.blanks (by decide)) (by decide) (by decide)) rfl,
      by decide⟩
    bar := by decide
    runs := ⟨by decide, fun x y e => absurd (show ch%'#' ∈ bs%"ads.com/x|y" from (show bs%"ads.com/x|y" = _ from e) ▸ by simp) (by decide)⟩
    clean := by decide +kernel
    opts := fun o h => by cases h; decide
    short := by decide +kernel
    host := by decide +kernel }

end AdBlock
