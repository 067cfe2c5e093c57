import Verif.Lemmas.AnyLine
/-
Every line that can be loaded is blank, holds no rule, or is the line of a well-formed rule.
-/
namespace AdBlock
open Spec

/-- where the options or the selector of a line begin -/
theorem split_runs (line : Bytes) : ∃ pre rest, line = pre ++ rest ∧ RunsOn pre rest ∧
    (rest = [] ∨ (∃ o, rest = ch%'$' :: o) ∨ ∃ mark selector, rest = mark ++ selector ∧ mark ∈ [bs%"##", bs%"#@"]) := by
  induction line with
  | nil => exact ⟨[], [], rfl, ⟨by simp, by simp⟩, .inl rfl⟩
  | cons c line ih =>
    by_cases h1 : c = ch%'$'
    · subst h1
      exact ⟨[], ch%'$' :: line, rfl, ⟨by simp, by simp⟩, .inr (.inl ⟨line, rfl⟩)⟩
    by_cases h2 : c = ch%'#' ∧ (line.head? = some ch%'#' ∨ line.head? = some ch%'@')
    · obtain ⟨rfl, h2⟩ := h2
      refine ⟨[], ch%'#' :: line, rfl, ⟨by simp, by simp⟩, .inr (.inr ?_)⟩
      cases line with
      | nil => simp at h2
      | cons d line =>
        refine ⟨[ch%'#', d], line, rfl, ?_⟩
        rcases h2 with h | h <;> cases h <;> simp
    obtain ⟨pre, rest, rfl, hr, h3⟩ := ih
    refine ⟨c :: pre, rest, rfl, ⟨?_, fun x y e => ?_⟩, h3⟩
    · intro h
      rcases List.mem_cons.1 h with h | h
      · exact h1 h.symm
      · exact hr.1 h
    · cases x with
      | nil =>
        cases e
        exact ⟨fun h => h2 ⟨rfl, .inl h⟩, fun h => h2 ⟨rfl, .inr h⟩⟩
      | cons d x =>
        simp only [List.cons_append, List.cons.injEq] at e
        exact hr.2 x y e.2

/-- the rule that begins with `a` and `extra` -/
def oddRule (a extra kept raw : Bytes) (anchor : Anchor) (options : Option Bytes) : RuleText where
  indent := a.takeWhile isBlank
  exception := decide (ch%'@' ∈ a.dropWhile isBlank)
  anchor := anchor
  text := kept ++ raw.filter (· ≠ ch%'|')
  rightBar := decide (ch%'|' ∈ raw)
  options := options
  odd := some ⟨a.dropWhile isBlank ++ extra, raw⟩

theorem mem_takeWhile_blank {a : Bytes} : ∀ c ∈ a.takeWhile isBlank, c = 32 ∨ c = 9 := by
  induction a with
  | nil => simp
  | cons d a ih =>
    intro c hc
    rw [List.takeWhile_cons] at hc
    split at hc
    · rename_i h
      rcases List.mem_cons.1 hc with rfl | hc
      · simpa [isBlank] using h
      · exact ih c hc
    · cases hc

theorem head_dropWhile_blank {a : Bytes} : ∀ c ∈ (a.dropWhile isBlank).head?, c ≠ 32 ∧ c ≠ 9 := by
  induction a with
  | nil => simp
  | cons d a ih =>
    rw [List.dropWhile_cons]
    split
    · exact ih
    · rename_i h
      intro c hc
      cases hc
      simpa [isBlank] using h

theorem oddRule_line (a extra kept raw : Bytes) (anchor : Anchor) (options : Option Bytes) :
    (oddRule a extra kept raw anchor options).line = a ++ extra ++ anchor.mark ++ raw ++ RuleText.optionText options := by
  show a.takeWhile isBlank ++ (a.dropWhile isBlank ++ extra ++ anchor.mark ++ raw ++ RuleText.optionText options) = _
  simp only [← List.append_assoc, List.takeWhile_append_dropWhile]

theorem oddRule_wellFormed {line a extra kept raw : Bytes} {anchor : Anchor} {options : Option Bytes}
    (hclean : ∀ c ∈ line, c ≠ 0 ∧ c ≠ 10 ∧ c ≠ 13)
    (e : line = a ++ extra ++ anchor.mark ++ raw ++ RuleText.optionText options) (hex : ∀ c ∈ extra.head?, c ≠ 32 ∧ c ≠ 9)
    (hop : RuleText.Opening (oddRule a extra kept raw anchor options) ⟨a.dropWhile isBlank ++ extra, raw⟩ (decide (ch%'@' ∈ a.dropWhile isBlank)) kept)
    (hruns : RunsOn raw (RuleText.optionText options)) (hopts : ∀ o, options = some o → o.head? ≠ some ch%'$')
    (hshort : line.length ≤ 2047 + (options.getD []).length)
    (hhost : anchor = .host → (barHost raw).length ≤ (kept ++ raw.filter (· ≠ ch%'|')).length) :
    (oddRule a extra kept raw anchor options).WellFormed ∧ (oddRule a extra kept raw anchor options).line = line := by
  have hl := oddRule_line a extra kept raw anchor options
  refine ⟨.odd (w := ⟨a.dropWhile isBlank ++ extra, raw⟩) rfl ?_, hl.trans e.symm⟩
  refine ⟨mem_takeWhile_blank, ?_, ⟨kept, hop, rfl⟩, rfl, hruns, ?_, hopts, ?_, hhost⟩
  · intro c hc
    cases hd : a.dropWhile isBlank with
    | nil =>
      rw [hd] at hc
      exact hex c hc
    | cons d y =>
      rw [hd] at hc
      exact head_dropWhile_blank c (by rw [hd]; exact hc)
  · rw [hl, ← e]; exact hclean
  · unfold RuleText.Short
    rw [hl, ← e]
    exact hshort

/-- Every line that can be loaded, apart from a peculiar kind of host rules, is blank or a comment, holds no network rule,
or is the line of a well-formed rule. -/
theorem every_line {line : Bytes} (hclean : ∀ c ∈ line, c ≠ 0 ∧ c ≠ 10 ∧ c ≠ 13) (hn : ¬ NoText line) (ht : ¬ TextTooShort line)
    (hp : ¬ Peculiar line) : Idle line ∨ Ruleless line ∨ ∃ r : RuleText, r.WellFormed ∧ r.line = line := by
  by_cases hrem : Remark line
  · exact .inr (.inl (.remark hrem))
  by_cases hreg : RegexLine line
  · exact .inr (.inl (.regex hreg))
  obtain ⟨pre, rest, hline, hruns, hrest⟩ := split_runs line
  have hb : Begins line pre rest := ⟨hline, hruns, hrem, hreg⟩
  by_cases hlong : 2047 < pre.length ∨ pre.length = 2047 ∧ rest ≠ []
  · refine .inr (.inl (.long (before := pre.take 2047) (rest := pre.drop 2047 ++ rest) ⟨?_, ?_, hrem, hreg⟩ ?_ ?_ ?_))
    · rw [hline, ← List.append_assoc, List.take_append_drop]
    · exact runsOn_init (by rw [List.take_append_drop]; exact hruns)
    · rw [List.length_take]; omega
    · intro h
      rw [List.append_eq_nil_iff, List.drop_eq_nil_iff] at h
      rcases hlong with h' | h'
      · omega
      · exact h'.2 h.2
    · rintro ⟨a, kept, p, hl, hlead, hlen, hh⟩
      have e1 : pre.take 2047 = a ++ bs%"||" ++ p.take (2047 - (a ++ bs%"||").length) := by
        have : line.take 2047 = pre.take 2047 := by
          rw [hline, List.take_append_of_le_length (by omega)]
        rw [← this, hl, List.take_append, List.take_of_length_le hlen]
      have hl2 : line.length > 2047 := by
        rw [hline, List.length_append]
        rcases hlong with h | ⟨h, h'⟩
        · omega
        · have := List.length_pos_iff.2 h'
          omega
      have hne : p.drop (2047 - (a ++ bs%"||").length) ≠ [] := by
        intro h
        rw [List.drop_eq_nil_iff] at h
        rw [hl, List.length_append] at hl2
        omega
      have hlen' : (a ++ bs%"||" ++ p.take (2047 - (a ++ bs%"||").length)).length = 2047 := by
        rw [← e1, List.length_take]; omega
      have hhl : HostLine line a kept (p.take (2047 - (a ++ bs%"||").length)) (p.drop (2047 - (a ++ bs%"||").length)) := by
        refine ⟨?_, hlead, ?_⟩
        · rw [List.append_assoc, List.take_append_drop, hl]
        · have h1 : RunsOn (pre.take 2047) (pre.drop 2047 ++ rest) := runsOn_init (by rw [List.take_append_drop]; exact hruns)
          have h2 : pre.drop 2047 ++ rest = p.drop (2047 - (a ++ bs%"||").length) := by
            have : line.drop 2047 = pre.drop 2047 ++ rest := by
              rw [hline, List.drop_append_of_le_length (by omega)]
            rw [← this, hl, List.drop_append, List.drop_of_length_le hlen, List.nil_append]
          rw [e1, h2] at h1
          exact runsOn_tail h1
      have hpp := List.take_append_drop (2047 - (a ++ bs%"||").length) p
      by_cases ho : OnlyHost p
      · exact hp ⟨a, kept, _, _, hhl, by rw [hpp]; exact ho, hlen', hne⟩
      · exact hn ⟨a, kept, _, _, hhl, hne, hlen', by rw [hpp]; exact hh.resolve_right ho, by rw [hpp]; exact ho⟩
  have hlt : rest ≠ [] → pre.length < 2047 := by
    intro h
    have : pre.length ≠ 2047 := fun e => hlong (.inr ⟨e, h⟩)
    have : ¬ 2047 < pre.length := fun e => hlong (.inl e)
    omega
  have hle : pre.length ≤ 2047 := by
    have : ¬ 2047 < pre.length := fun e => hlong (.inl e)
    omega
  -- marks
  have hsel : ∀ {mark selector}, rest = mark ++ selector → mark ∈ [bs%"##", bs%"#@", bs%"$$"] → Ruleless line := by
    intro mark selector e hm
    refine .page (before := pre) (mark := mark) (selector := selector) (e ▸ hb) hm (hlt ?_)
    rw [e]
    intro h
    rw [(List.append_eq_nil_iff.1 h).1] at hm
    exact absurd hm (by decide)
  -- options
  suffices hmain : ∀ options : Option Bytes, rest = RuleText.optionText options → (∀ o, options = some o → o.head? ≠ some ch%'$') →
      Idle line ∨ Ruleless line ∨ ∃ r : RuleText, r.WellFormed ∧ r.line = line by
    rcases hrest with h | ⟨o, h⟩ | ⟨mark, selector, h, hm⟩
    · exact hmain none h (by simp)
    · by_cases ho : o.head? = some ch%'$'
      · cases o with
        | nil => cases ho
        | cons d o =>
          cases ho
          exact .inr (.inl (hsel (mark := bs%"$$") (selector := o) h (by simp)))
      · exact hmain (some o) h (by rintro _ ⟨⟩; exact ho)
    · refine .inr (.inl (hsel h ?_))
      simp only [List.mem_cons, List.not_mem_nil, or_false] at hm ⊢
      rcases hm with h | h <;> simp [h]
  intro options hrest hopts
  subst hrest
  have hshort : line.length ≤ 2047 + (options.getD []).length := by
    rw [hline, List.length_append]
    cases options with
    | none => simpa [RuleText.optionText] using hle
    | some o =>
      have := hlt (by simp [RuleText.optionText])
      simp only [RuleText.optionText, List.length_cons, Option.getD_some]
      omega
  have hsp : ∀ a : Bytes, a.takeWhile isBlank ++ a.dropWhile isBlank = a := fun a => List.takeWhile_append_dropWhile
  have make : ∀ {a extra kept raw : Bytes} {anchor : Anchor}, pre = a ++ extra ++ anchor.mark ++ raw → (∀ c ∈ extra.head?, c ≠ 32 ∧ c ≠ 9) →
      RuleText.Opening (oddRule a extra kept raw anchor options) ⟨a.dropWhile isBlank ++ extra, raw⟩ (decide (ch%'@' ∈ a.dropWhile isBlank)) kept →
      (anchor = .host → (barHost raw).length ≤ (kept ++ raw.filter (· ≠ ch%'|')).length) →
      Idle line ∨ Ruleless line ∨ ∃ r : RuleText, r.WellFormed ∧ r.line = line := by
    intro a extra kept raw anchor e hex hop h1
    have hr : RunsOn raw (RuleText.optionText options) := runsOn_tail (by rw [← e]; exact hruns)
    exact .inr (.inr ⟨_, oddRule_wellFormed hclean (by rw [hline, e]) hex hop hr hopts hshort h1⟩)
  rcases shape hclean hrem hreg hline hle with h | ⟨h1, h2, h3, h4⟩ | ⟨h1, h2⟩ | ⟨h1, h2, h3⟩ | ⟨h1, h2, h3, h4, h5⟩
  · rename_i kept
    by_cases hat : ch%'@' ∈ pre
    · have hat' : ch%'@' ∈ pre.dropWhile isBlank := by
        rw [← hsp pre] at hat
        rcases List.mem_append.1 hat with h | h
        · rcases mem_takeWhile_blank _ h with h | h <;> cases h
        · exact h
      refine make (a := pre) (extra := []) (kept := kept) (raw := []) (anchor := .none) (by simp [Anchor.mark]) (by simp) ?_ (fun h => by cases h)
      have := RuleText.Opening.plain (r := oddRule pre [] kept [] .none options) (w := ⟨pre.dropWhile isBlank ++ [], []⟩) (kept := kept)
        (by show Lead (pre.takeWhile isBlank ++ (pre.dropWhile isBlank ++ [])) kept
            rw [List.append_nil, hsp]; exact h) rfl (fun _ => by simpa using hat') (by simp) (by simp) (by simp)
      simpa using this
    · have hbl := blanks_of_lead h hat
      cases options with
      | none =>
        simp only [RuleText.optionText, List.append_nil] at hline
        subst hline
        exact .inl (.inl ⟨hle, hbl⟩)
      | some o => exact .inr (.inl (.options ⟨pre, o, hline, hbl, hlt (by simp [RuleText.optionText]), hopts o rfl⟩))
  · rename_i a kept mid raw
    refine make (a := a) (extra := ch%'@' :: mid) (kept := kept ++ mid) (raw := raw) (anchor := .none) (by rw [h1]; simp [Anchor.mark]) ?_ ?_ (fun h => by cases h)
    · intro c hc; cases hc; decide
    · exact .oneAt (a := a.dropWhile isBlank) (by show Lead (a.takeWhile isBlank ++ _) kept; rw [hsp]; exact h2) rfl h3 rfl h4
  · rename_i a kept raw
    have hhl : HostLine line a kept raw (RuleText.optionText options) := ⟨by rw [hline, h1], h2, runsOn_tail (by rw [← h1]; exact hruns)⟩
    have hbar := barHost_append (p := raw) (optionText_sep options)
    have hend : RuleText.optionText options = [] ∨ ∃ o, RuleText.optionText options = ch%'$' :: o ∧ o.head? ≠ some ch%'$' := by
      cases options with
      | none => exact .inl rfl
      | some o => exact .inr ⟨o, rfl, hopts o rfl⟩
    have hend' : RuleText.optionText options = [] ∧ line.length ≤ 2047 ∨
        (∃ o, RuleText.optionText options = ch%'$' :: o ∧ o.head? ≠ some ch%'$') ∧ (a ++ bs%"||" ++ raw).length < 2047 := by
      rcases hend with h | ⟨o, h, ho⟩
      · refine .inl ⟨h, ?_⟩
        rw [hline, h, List.append_nil]
        exact hle
      · refine .inr ⟨⟨o, h, ho⟩, ?_⟩
        rw [← h1]
        exact hlt (by rw [h]; simp)
    refine make (a := a) (extra := []) (kept := kept) (raw := raw) (anchor := .host) (by rw [h1]; simp [Anchor.mark]) (by simp) ?_ ?_
    · have := RuleText.Opening.host (r := oddRule a [] kept raw .host options) (w := ⟨a.dropWhile isBlank ++ [], raw⟩) (kept := kept)
        (by show Lead (a.takeWhile isBlank ++ (a.dropWhile isBlank ++ [])) kept
            rw [List.append_nil, hsp]; exact h2) rfl
      simpa using this
    · intro _
      exact Nat.le_of_not_lt fun hlt' => ht ⟨a, kept, raw, _, hhl, hend', by rw [hbar]; exact hlt'⟩
  · rename_i a kept raw
    by_cases hne : raw ++ RuleText.optionText options = []
    · obtain ⟨rfl, ho⟩ := List.append_eq_nil_iff.1 hne
      have ho : options = none := by
        cases options with
        | none => rfl
        | some o => cases ho
      refine make (a := a) (extra := bs%"|") (kept := kept) (raw := []) (anchor := .none) (by rw [h1]; simp [Anchor.mark]) ?_ ?_ (fun h => by cases h)
      · intro c hc; cases hc; decide
      · exact .oneBar (a := a.dropWhile isBlank) (by show Lead (a.takeWhile isBlank ++ _) kept; rw [hsp]; exact h2) rfl rfl rfl ho
    · refine make (a := a) (extra := []) (kept := kept) (raw := raw) (anchor := .left) (by rw [h1]; simp [Anchor.mark]) (by simp) ?_ (fun h => by cases h)
      have := RuleText.Opening.left (r := oddRule a [] kept raw .left options) (w := ⟨a.dropWhile isBlank ++ [], raw⟩) (kept := kept)
        (by show Lead (a.takeWhile isBlank ++ (a.dropWhile isBlank ++ [])) kept
            rw [List.append_nil, hsp]; exact h2) rfl hne h3
      simpa using this
  · rename_i a kept c raw
    refine make (a := a) (extra := []) (kept := kept) (raw := c :: raw) (anchor := .none) (by rw [h1]; simp [Anchor.mark]) (by simp) ?_ (fun h => by cases h)
    have hl : (oddRule a [] kept (c :: raw) .none options).line = line := by
      rw [oddRule_line, hline, h1]; simp [Anchor.mark]
    have := RuleText.Opening.plain (r := oddRule a [] kept (c :: raw) .none options) (w := ⟨a.dropWhile isBlank ++ [], c :: raw⟩) (kept := kept)
        (by show Lead (a.takeWhile isBlank ++ (a.dropWhile isBlank ++ [])) kept
            rw [List.append_nil, hsp]; exact h2) rfl (fun h => by cases h) (by rintro d ⟨⟩; exact h3) (by
          rintro y ⟨⟩
          have := h4 rfl
          intro h'
          apply this
          cases raw with
          | nil => cases h'
          | cons => exact h') (by
          rintro ⟨⟩
          rw [hl]
          exact h5 rfl)
    simpa using this

/-- what a peculiar rule is read as: it consists of a host, but has no text -/
theorem parse_peculiar {line : Bytes} (hclean : ∀ c ∈ line, c ≠ 0 ∧ c ≠ 10 ∧ c ≠ 13) (h : Peculiar line) {bad : List Bytes} {pr full : Bool}
    {f : Filter} {e : Effect} (hf : parseFilter bad line 0 pr full = .ok (f, e)) :
    has f.filterType FTHostOnly = true ∧ (∃ s, Kind s f) ∧ f.data = none := by
  obtain ⟨a, kept, body, rest, hl, ho, hlen, hr⟩ := h
  obtain ⟨s, h1, h2⟩ := pass_hostLine (t := 0) (.inl rfl) (pr := pr) hl hclean (by omega)
  obtain ⟨c, p, rfl⟩ := List.exists_cons_of_ne_nil hr
  rw [parseLoop_long _ _ _ _ _ _ _ (by omega)] at h1
  unfold parseFilter at hf
  rw [h1] at hf
  cases hf
  exact ⟨h2.only.2 ho, ⟨_, kind_of_net h2.net⟩, h2.none⟩

/-- The lines of every list that can be loaded, if it has no peculiar rules, are those of a list of rules. -/
theorem every_list {ls : List Bytes} (hclean : ∀ line ∈ ls, ∀ c ∈ line, c ≠ 0 ∧ c ≠ 10 ∧ c ≠ 13)
    (h : ∀ line ∈ ls, ¬ NoText line ∧ ¬ TextTooShort line ∧ ¬ Peculiar line) : ∃ rs, ListOf ls rs ∧ ∀ r ∈ rs, r.WellFormed := by
  induction ls with
  | nil => exact ⟨[], .nil, by simp⟩
  | cons line ls ih =>
    obtain ⟨rs, h1, h2⟩ := ih (fun l hl => hclean l (by simp [hl])) (fun l hl => h l (by simp [hl]))
    obtain ⟨g1, g2, g3⟩ := h line (by simp)
    rcases every_line (hclean line (by simp)) g1 g2 g3 with hi | hr | ⟨r, hw, rfl⟩
    · exact ⟨rs, .idle hi h1, h2⟩
    · exact ⟨rs, .other (hclean line (by simp)) hr h1, h2⟩
    · exact ⟨r :: rs, .rule r h1, fun r' hr' => by
        rcases List.mem_cons.1 hr' with rfl | hr'
        · exact hw
        · exact h2 r' hr'⟩

end AdBlock
