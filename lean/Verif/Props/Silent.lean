import Verif.Lemmas.Silent
/-!
C79: lines that hold no network rule change no answer.
-/
namespace AdBlock
open Spec

/-- **C79**: two programs which make the same calls, except that the lists they load differ in blank lines, comments, element
hiding rules, regular expressions, options without a rule and over-long lines, get the same answers (or come to the same
undefined behaviour), whatever the client was before; afterwards, the tags, the statistics and the bad fingerprints
found are the same. -/
theorem C79_silent_lines {E : Env} (c : Client E) {ops ops' : List Op} (h : SameCalls ops ops') :
    (fun r => (r.1, r.2.tags, r.2.stats, r.2.badFps)) <$> run c ops = (fun r => (r.1, r.2.tags, r.2.stats, r.2.badFps)) <$> run c ops' := by
  have := run_upto h (UptoSilent.refl c)
  revert this
  generalize run c ops = x
  generalize run c ops' = y
  intro h
  cases h with
  | ub u => rfl
  | ok h =>
    obtain ⟨h1, L, h2, -⟩ := h
    simp only [Res.map_ok, Res.ok.injEq, Prod.mk.injEq]
    rw [h1, h2]
    exact ⟨rfl, rfl, rfl, rfl⟩

theorem sameCalls_refl : ∀ ops : List Op, SameCalls ops ops
  | [] => .nil
  | op :: ops => .cons (.same op) (sameCalls_refl ops)

/-- **C79**: adding such a line anywhere to a list changes no answer to later calls. -/
theorem C79_added_line {E : Env} (c : Client E) {before line after : Bytes} (h1 : 0 ∉ before) (h2 : ∀ x ∈ line, x ≠ 0 ∧ x ≠ 10 ∧ x ≠ 13)
    (h3 : 0 ∉ after) (hs : Silent line) (preserve : Bool) (ops : List Op) :
    Prod.fst <$> run c (.parse (before ++ 10 :: (line ++ 10 :: after)) preserve :: ops) =
      Prod.fst <$> run c (.parse (before ++ 10 :: after) preserve :: ops) := by
  have h0 : ∀ {a b : Bytes}, 0 ∉ a → 0 ∉ b → 0 ∉ a ++ 10 :: b := by
    intro a b ha hb h
    rcases List.mem_append.1 h with h | h
    · exact ha h
    · rcases List.mem_cons.1 h with h | h
      · cases h
      · exact hb h
  have hl : lines line = [line] := lines_single fun x hx => ⟨(h2 x hx).2.1, (h2 x hx).2.2⟩
  have hr : SameRules (before ++ 10 :: (line ++ 10 :: after)) (before ++ 10 :: after) := by
    refine ⟨h0 h1 (h0 (fun h => (h2 0 h).1 rfl) h3), h0 h1 h3, fun l => decide (l ≠ line), fun l hl => ?_, ?_⟩
    · have : l = line := by simpa using hl
      rw [this]; exact hs
    · rw [lines_append _ _ (.inr rfl), lines_append _ _ (.inr rfl), lines_append _ _ (.inr rfl), hl]
      simp
  have := C79_silent_lines c (SameCalls.cons (.load preserve hr) (sameCalls_refl ops))
  revert this
  generalize run c (.parse (before ++ 10 :: (line ++ 10 :: after)) preserve :: ops) = x
  generalize run c (.parse (before ++ 10 :: after) preserve :: ops) = y
  intro h
  cases x <;> cases y <;> simp at h ⊢
  · exact h.1
  · exact h

/-- nothing stands before the anchor of a rule that begins with an ordinary character -/
theorem lead_nil {a kept rest tail : Bytes} {c : Byte} (h : Lead a kept) (he : a ++ rest = c :: tail) (hc : c ≠ 32 ∧ c ≠ 9 ∧ c ≠ ch%'@') : a = [] := by
  have key : ∀ {a kept : Bytes}, Lead a kept → ∀ x, a.head? = some x → x = 32 ∨ x = 9 ∨ x = ch%'@' := by
    intro a kept h
    induction h with
    | blanks hw =>
      intro x hx
      rcases hw x (List.mem_of_mem_head? hx) with h | h
      · exact .inl h
      · exact .inr (.inl h)
    | @ats a kept mid tail _ _ _ ih =>
      intro x hx
      cases a with
      | nil =>
        simp only [List.nil_append, List.cons_append, List.head?_cons, Option.some.injEq] at hx
        exact .inr (.inr hx.symm)
      | cons y a =>
        simp only [List.cons_append, List.head?_cons, Option.some.injEq] at hx
        exact ih x (by simp [hx])
  cases a with
  | nil => rfl
  | cons y a =>
    rw [List.cons_append, List.cons.injEq] at he
    rcases key h y rfl with h | h | h <;> rw [← he.1] at hc <;> simp [h] at hc

theorem begins_ordinary {c : Byte} {tail : Bytes} (hc : c ∉ bs%"@![/ \t") (hh : c = ch%'#' → tail.head? ≠ some 32) :
    ¬ Remark (c :: tail) ∧ ¬ RegexLine (c :: tail) := by
  have hc' : c ≠ 32 ∧ c ≠ 9 ∧ c ≠ ch%'@' :=
    ⟨by rintro rfl; exact hc (by decide), by rintro rfl; exact hc (by decide), by rintro rfl; exact hc (by decide)⟩
  constructor
  · rintro ⟨a, kept, rest, he, hl, -, hr⟩
    have := lead_nil hl he.symm hc'
    subst this
    rw [List.nil_append] at he
    subst he
    rcases hr with h | h | ⟨q, h⟩
    · cases h; exact hc (by decide)
    · cases h; exact hc (by decide)
    · rw [List.cons_append, List.cons.injEq] at h
      obtain ⟨rfl, rfl⟩ := h
      exact hh rfl rfl
  · rintro ⟨a, kept, rest, he, hl, -⟩
    have := lead_nil hl he.symm hc'
    subst this
    rw [List.nil_append, List.cons.injEq] at he
    obtain ⟨rfl, -⟩ := he
    exact hc (by decide)

/-- element hiding rules as they are usually written -/
theorem silent_elements {domains mark selector : Bytes} (hd : ∀ c ∈ domains, c ∉ bs%"|@![/$# \t") (hm : mark ∈ [bs%"##", bs%"#@"])
    (hl : domains.length < 2047) : Silent (domains ++ (mark ++ selector)) := by
  have hord : ¬ Remark (domains ++ (mark ++ selector)) ∧ ¬ RegexLine (domains ++ (mark ++ selector)) := by
    cases domains with
    | cons c ds =>
      have := hd c (by simp)
      have sub : ∀ x ∈ bs%"@![/ \t", x ∈ bs%"|@![/$# \t" := by decide
      exact begins_ordinary (fun h => this (sub _ h)) (fun h => absurd (by rw [h]; decide) this)
    | nil =>
      simp only [List.mem_cons, List.not_mem_nil, or_false] at hm
      rcases hm with rfl | rfl
      · exact begins_ordinary (by decide) (fun _ => by simp)
      · exact begins_ordinary (by decide) (fun _ => by simp)
  have hn : ∀ x ∈ bs%"|@![/$# \t", x ∉ domains := fun x hx h => hd x h hx
  exact .elements ⟨rfl, ⟨hn _ (by decide), fun x y e => absurd (by rw [e]; simp) (hn ch%'#' (by decide))⟩, hord.1, hord.2⟩ hm hl

/-- two lists which differ in a comment, an element hiding rule and a regular expression -/
example : SameRules bs%"! title\na.com##.ad\n||b.com^\n/ads[0-9]/\n" bs%"||b.com^" := by
  refine ⟨by decide, by decide, fun l => decide (l ∉ [[], bs%"! title", bs%"a.com##.ad", bs%"/ads[0-9]/"]), fun l hl => ?_, by decide +kernel⟩
  have : l = [] ∨ l = bs%"! title" ∨ l = bs%"a.com##.ad" ∨ l = bs%"/ads[0-9]/" := by
    have := Classical.not_not.1 (of_decide_eq_false hl)
    simpa using this
  rcases this with rfl | rfl | rfl | rfl
  · exact .idle (.inl ⟨by decide, by decide⟩)
  · exact .remark ⟨[], [], _, rfl, .blanks (by decide), by decide, .inl rfl⟩
  · exact silent_elements (domains := bs%"a.com") (mark := bs%"##") (selector := bs%".ad") (by decide) (by decide) (by decide)
  · exact .regex ⟨[], [], bs%"ads[0-9]/", rfl, .blanks (by decide), by decide, rfl, by decide⟩

/-- the statistics after loading a list and asking about a request -/
def tracesOf (list : Bytes) : Res Stats :=
  (fun r => r.2.stats) <$> run (Client.fresh toyEnv) [.parse list false, .matches bs%"http://a.com/banner" 0 none]

/-- Rules about the contents of pages with `$$` are not among these lines: they leave traces in the statistics. -/
theorem C79_html_rules_leave_traces :
    (tracesOf bs%"a.com##banner").isOk = true ∧ tracesOf bs%"a.com##banner" = tracesOf [] ∧ tracesOf bs%"a.com$$banner" ≠ tracesOf [] := by
  decide +kernel

end AdBlock
