import Verif.Lemmas.HostLine
import Verif.Lemmas.PageLine
import Verif.Lemmas.Outcome
/-
How any line of a list begins, and lines that stand for no network rule (`Ruleless` in `SpecRequest`).
-/
namespace AdBlock
open Spec

theorem runsOn_init {p q r : Bytes} (h : RunsOn (p ++ q) r) : RunsOn p (q ++ r) :=
  ⟨fun hc => h.1 (by simp [hc]), fun x y e => by
    have := h.2 x (y ++ q) (by rw [e]; simp)
    simpa using this⟩

theorem runsOn_tail {p q r : Bytes} (h : RunsOn (p ++ q) r) : RunsOn q r :=
  ⟨fun hc => h.1 (by simp [hc]), fun x y e => h.2 (p ++ x) y (by rw [e]; simp)⟩

theorem lead_snoc {a kept : Bytes} (h : Lead a kept) {c : Byte} (hc : c = 32 ∨ c = 9) : ∃ k, Lead (a ++ [c]) k := by
  cases h with
  | blanks hw =>
    exact ⟨[], .blanks fun d hd => by
      rcases List.mem_append.1 hd with hd | hd
      · exact hw d hd
      · rw [List.mem_singleton.1 hd]; exact hc⟩
  | @ats a k mid tail h1 h2 h3 =>
    refine ⟨k ++ mid ++ (tail ++ [c]), ?_⟩
    have : a ++ ch%'@' :: mid ++ ch%'@' :: tail ++ [c] = a ++ ch%'@' :: mid ++ ch%'@' :: (tail ++ [c]) := by simp
    rw [this]
    exact .ats h1 h2 fun d hd => by
      rcases List.mem_append.1 hd with hd | hd
      · exact h3 d hd
      · rw [List.mem_singleton.1 hd]; exact hc

/-- How the beginning `pre` of a line, which is followed by `rest`, is made up. -/
inductive Shape (line pre rest : Bytes) : Prop
  | lead {kept} : Lead pre kept → Shape line pre rest
  | oneAt {a kept mid raw} : pre = a ++ ch%'@' :: mid ++ raw → Lead a kept → (∀ c ∈ mid, c ∈ bs%"![/ \t") →
      (∀ c ∈ raw.head?, c ∉ bs%"![/ \t@") → Shape line pre rest
  | host {a kept raw} : pre = a ++ bs%"||" ++ raw → Lead a kept → Shape line pre rest
  | left {a kept raw} : pre = a ++ ch%'|' :: raw → Lead a kept → raw.head? ≠ some ch%'|' → Shape line pre rest
  | plain {a kept c raw} : pre = a ++ c :: raw → Lead a kept → c ∉ bs%"|@![ \t" → (c = ch%'#' → (raw ++ rest).head? ≠ some 32) →
      (c = ch%'/' → ¬ (line.getLast? = some ch%'/' ∧ 1 < line.length)) → Shape line pre rest

theorem shape {line : Bytes} (hclean : ∀ c ∈ line, c ≠ 0 ∧ c ≠ 10 ∧ c ≠ 13) (hrem : ¬ Remark line) (hreg : ¬ RegexLine line) {pre rest : Bytes}
    (hline : line = pre ++ rest) (hlen : pre.length ≤ 2047) : Shape line pre rest := by
  generalize hn : pre.length = n
  induction n generalizing pre rest with
  | zero =>
    rw [List.length_eq_zero_iff] at hn
    subst hn
    exact .lead (.blanks (by simp))
  | succ n ih =>
    rcases List.eq_nil_or_concat pre with rfl | ⟨pre, c, rfl⟩
    · cases hn
    rw [List.concat_eq_append] at hline hlen hn ⊢
    simp only [List.length_append, List.length_cons, List.length_nil] at hlen hn
    rw [List.append_assoc] at hline
    rcases ih hline (by omega) (by omega) with h | ⟨h1, h2, h3, h4⟩ | ⟨h1, h2⟩ | ⟨h1, h2, h3⟩ | ⟨h1, h2, h3, h4, h5⟩
    · rename_i kept
      by_cases hw : c = 32 ∨ c = 9
      · obtain ⟨k, hk⟩ := lead_snoc h hw
        exact .lead hk
      by_cases hb : c = ch%'|'
      · subst hb
        exact .left (raw := []) rfl h (by simp)
      by_cases ha : c = ch%'@'
      · subst ha
        exact .oneAt (mid := []) (raw := []) (by simp) h (by simp) (by simp)
      by_cases hc : c = ch%'!' ∨ c = ch%'['
      · exact absurd ⟨pre, kept, _, hline, h, by omega, by rcases hc with rfl | rfl <;> simp⟩ hrem
      refine .plain (raw := []) (a := pre) (c := c) rfl h ?_ ?_ ?_
      · simp only [not_or] at hc hw
        simp [hb, ha, hc, hw]
      · rintro rfl h32
        refine hrem ⟨pre, kept, _, hline, h, by omega, .inr (.inr ?_)⟩
        rw [List.nil_append] at h32
        cases rest with
        | nil => cases h32
        | cons d rest =>
          cases h32
          exact ⟨rest, rfl⟩
      · rintro rfl ⟨g1, g2⟩
        exact hreg ⟨pre, kept, rest, hline, h, by omega, g1, g2⟩
    · rename_i a kept mid raw
      cases raw with
      | cons d raw => exact .oneAt (raw := d :: raw ++ [c]) (by rw [h1]; simp) h2 h3 (by simpa using h4)
      | nil =>
        by_cases hc : c ∈ bs%"![/ \t"
        · exact .oneAt (mid := mid ++ [c]) (raw := []) (by rw [h1]; simp) h2 (fun d hd => by
            rcases List.mem_append.1 hd with hd | hd
            · exact h3 d hd
            · rw [List.mem_singleton.1 hd]; exact hc) (by simp)
        by_cases ha : c = ch%'@'
        · subst ha
          refine .lead (kept := kept ++ mid ++ []) ?_
          rw [h1, List.append_nil]
          exact .ats h2 h3 (by simp)
        · refine .oneAt (raw := [c]) (by rw [h1]; simp) h2 h3 ?_
          simp only [List.head?_cons, Option.mem_def, Option.some.injEq]
          rintro d rfl
          simp only [List.mem_cons, List.not_mem_nil, or_false, not_or] at hc ⊢
          simp [hc, ha]
    · exact .host (by rw [h1, List.append_assoc]) h2
    · rename_i a kept raw
      cases raw with
      | cons d raw => exact .left (raw := d :: raw ++ [c]) (by rw [h1]; simp) h2 (by simpa using h3)
      | nil =>
        by_cases hb : c = ch%'|'
        · subst hb
          exact .host (raw := []) (by rw [h1]; simp) h2
        · exact .left (raw := [c]) (by rw [h1]; simp) h2 (by simpa using hb)
    · rename_i a kept d raw
      exact .plain (raw := raw ++ [c]) (by rw [h1]; simp) h2 h3 (by simpa using h4) h5

/-- The state of the parser behind the beginning of a line. -/
structure Behind (pre p : Bytes) (s : PLocals) : Prop where
  st : s.st ≠ .dataOnly
  none : s.f.data = Option.none
  dom : s.f.domainList = Option.none
  start : s.st = .start → ∀ c ∈ pre, c = 32 ∨ c = 9
  only : has s.f.filterType FTHostOnly = true → ∃ a kept raw, pre = a ++ bs%"||" ++ raw ∧ Lead a kept ∧ OnlyHost (raw ++ p)
  anch : has s.f.filterType FTHostAnchored = true → ∃ a kept raw, pre = a ++ bs%"||" ++ raw ∧ Lead a kept ∧ s.f.host = some (barHost (raw ++ p))
  net : NetBits s.f.filterType

theorem blanks_of_lead {a kept : Bytes} (h : Lead a kept) (hat : ch%'@' ∉ a) : ∀ c ∈ a, c = 32 ∨ c = 9 := by
  cases h with
  | blanks hw => exact hw
  | ats => simp at hat

section
variable {line : Bytes} {t : Byte} (pr : Bool)

theorem behind_data {pre p : Bytes} {s : PLocals} (hs : s.st ≠ .dataOnly ∧ s.st ≠ .start) {k m : Mask} (hk : k = 0 ∨ k = FTException)
    (hm : m = 0 ∨ m = FTLeftAnchored) (b : Bool)
    (hf : s.f = if b then ({ filterType := k ||| m } : Filter).addType FTRightAnchored else { filterType := k ||| m }) : Behind pre p s := by
  have key : has s.f.filterType FTHostOnly = false ∧ has s.f.filterType FTHostAnchored = false ∧ NetBits s.f.filterType ∧
      s.f.data = none ∧ s.f.domainList = none := by
    rw [hf]
    rcases hk with rfl | rfl <;> rcases hm with rfl | rfl <;> cases b <;> decide
  obtain ⟨k1, k2, k3, k4, k5⟩ := key
  exact ⟨hs.1, k4, k5, fun h => absurd h hs.2, fun h => (by rw [k1] at h; cases h),
    fun h => (by rw [k2] at h; cases h), k3⟩

theorem leadState_kind (a kept : Bytes) : (leadState a kept).f = { filterType := 0 } ∨ (leadState a kept).f = { filterType := FTException } := by
  unfold leadState
  by_cases h : ch%'@' ∈ a <;> simp [h]

/-- the parser on the beginning of a line -/
theorem reach (hclean : ∀ c ∈ line, c ≠ 0 ∧ c ≠ 10 ∧ c ≠ 13) (ht : Term t) {pre rest : Bytes} (hb : Begins line pre rest)
    (hlen : pre.length ≤ 2047) :
    ∃ s, parseLoop line t pr line 0 {} = parseLoop line t pr rest pre.length s ∧ Behind pre rest s := by
  have hline := hb.parts
  have hsub : ∀ c ∈ pre, c ≠ 10 ∧ c ≠ 13 ∧ c ≠ ch%'$' := fun c hc =>
    have := hclean c (by rw [hline]; simp [hc])
    ⟨this.2.1, this.2.2, fun e => hb.runs.1 (e ▸ hc)⟩
  have hmark : ∀ {x c y}, pre = x ++ c :: y → c = ch%'#' → (y ++ rest).head? ≠ some ch%'#' ∧ (y ++ rest).head? ≠ some ch%'@' := by
    rintro x c y e rfl
    exact hb.runs.2 x y e
  have hraw : ∀ {x raw : Bytes}, pre = x ++ raw → ∀ (pos : Nat) (s : PLocals), s.st = .data → pos + raw.length ≤ 2047 →
      ∃ s', parseLoop line t pr (raw ++ rest) pos s = parseLoop line t pr rest (pos + raw.length) s' ∧ s'.st = .data ∧
        s'.f = if decide (ch%'|' ∈ raw) = true then s.f.addType FTRightAnchored else s.f := by
    intro x raw e pos s hs hl
    have hr : RunsOn raw rest := runsOn_tail (by rw [← e]; exact hb.runs)
    exact ⟨_, loop_raw line t pr hr pos s hs hl, hs, by simp⟩
  have hstart : ∀ {x y}, pre = x ++ y → parseLoop line t pr line 0 {} = parseLoop line t pr (x ++ (y ++ rest)) 0 {} := by
    intro x y e
    congr 1
    rw [hline, e, List.append_assoc]
  have hkind : ∀ a kept, ∃ k, (k = 0 ∨ k = FTException) ∧ (leadState a kept).f = { filterType := k ||| 0 } := by
    intro a kept
    rcases leadState_kind a kept with h | h
    · exact ⟨_, .inl rfl, h⟩
    · exact ⟨_, .inr rfl, h⟩
  rcases shape hclean hb.remark hb.regex hline hlen with h | ⟨h1, h2, h3, h4⟩ | ⟨h1, h2⟩ | ⟨h1, h2, h3⟩ | ⟨h1, h2, h3, h4, h5⟩
  · rename_i kept
    refine ⟨leadState pre kept, ?_, ?_⟩
    · rw [hstart (x := pre) (y := []) (by simp), List.nil_append, loop_lead line t pr h rest hlen]
    · have hk := leadState_kind pre kept
      have hs : (leadState pre kept).st = .start → ch%'@' ∉ pre := by
        unfold leadState
        simp only
        split
        · intro h; cases h
        · rename_i h; exact fun _ => h
      refine ⟨?_, ?_, ?_, fun h' => blanks_of_lead h (hs h'), ?_, ?_, ?_⟩
      · have := leadState_fresh pre kept
        intro h; rw [h] at this; cases this
      all_goals rcases hk with h | h <;> rw [h]
      all_goals first | rfl | decide | (intro h; exact absurd h (by decide))
  · rename_i a kept mid raw
    subst h1
    simp only [List.length_append, List.length_cons] at hlen
    have e0 : parseLoop line t pr line 0 {} = parseLoop line t pr (raw ++ rest) (a.length + 1 + mid.length)
        { leadState a kept with st := .oneAt, data := kept ++ mid, ruleEnd := (leadState a kept).ruleEnd + 1 + mid.length } := by
      rw [hstart (x := a) (y := ch%'@' :: mid ++ raw) (by simp), loop_lead line t pr h2 _ (by omega), List.cons_append, List.cons_append,
        loop_at line t pr _ _ _ (leadState_fresh _ _) (by omega), List.append_assoc,
        loop_keep line t pr (step_oneAt line t pr) mid _ _ _ rfl h3 (by omega)]
      rfl
    obtain ⟨k, hk, hf⟩ := hkind a kept
    cases raw with
    | nil =>
      refine ⟨{ leadState a kept with st := .oneAt, data := kept ++ mid, ruleEnd := (leadState a kept).ruleEnd + 1 + mid.length }, ?_,
        behind_data (b := false) ⟨?_, ?_⟩ hk (.inl rfl) ?_⟩
      · rw [e0, List.nil_append]
        congr 1
        simp only [List.length_append, List.length_cons, List.length_nil]
        omega
      · simp
      · simp
      · rw [hf]; rfl
    | cons c raw =>
      rw [List.cons_append, loop_enter line t pr c (raw ++ rest) _ _ (.inr ⟨rfl, h4 c rfl⟩) (hsub c (by simp)) (hmark (x := a ++ ch%'@' :: mid) rfl),
        ← List.cons_append] at e0
      simp only [List.length_cons] at hlen
      obtain ⟨s', g1, g2, g3⟩ := hraw (x := a ++ ch%'@' :: mid) (raw := c :: raw) rfl (a.length + 1 + mid.length)
        { leadState a kept with st := .data, data := kept ++ mid, ruleEnd := (leadState a kept).ruleEnd + 1 + mid.length } rfl
        (by simp only [List.length_cons]; omega)
      refine ⟨s', ?_, behind_data (by rw [g2]; simp) hk (.inl rfl) _ (by rw [g3]; simp only [hf]; rfl)⟩
      rw [e0, g1]
      congr 1
      simp only [List.length_append, List.length_cons]
      omega
  · rename_i a kept raw
    subst h1
    obtain ⟨s, g1, g2⟩ := pass_hostLine ht (pr := pr) ⟨hline, h2, runsOn_tail hb.runs⟩ hclean hlen
    exact ⟨s, g1, by rw [g2.st]; simp, g2.none, g2.dom, fun h => (by rw [g2.st] at h; cases h),
      fun h => ⟨a, kept, raw, rfl, h2, g2.only.1 h⟩, fun _ => ⟨a, kept, raw, rfl, h2, g2.host⟩, g2.net⟩
  · rename_i a kept raw
    subst h1
    simp only [List.length_append, List.length_cons] at hlen
    have e0 : parseLoop line t pr line 0 {} = parseLoop line t pr (raw ++ rest) (a.length + 1)
        { leadState a kept with st := .oneBar, ruleEnd := (leadState a kept).ruleEnd + 1 } := by
      rw [hstart (x := a) (y := ch%'|' :: raw) (by simp), loop_lead line t pr h2 _ (by omega), List.cons_append,
        loop_bar line t pr _ _ _ (leadState_fresh _ _) (by omega)]
    obtain ⟨k, hk, hf⟩ := hkind a kept
    cases raw with
    | nil =>
      refine ⟨{ leadState a kept with st := .oneBar, ruleEnd := (leadState a kept).ruleEnd + 1 }, ?_,
        behind_data (b := false) ⟨?_, ?_⟩ hk (.inl rfl) ?_⟩
      · rw [e0, List.nil_append]
        congr 1
        simp only [List.length_append, List.length_cons, List.length_nil]
      · simp
      · simp
      · rw [hf]; rfl
    | cons c raw =>
      simp only [List.length_cons] at hlen
      rw [List.cons_append] at e0
      rcases loop_oneBar line t pr c (raw ++ rest) (a.length + 1)
        { leadState a kept with st := .oneBar, ruleEnd := (leadState a kept).ruleEnd + 1 } rfl (by simpa using h3) with h | h
      · rw [h, ← List.cons_append] at e0
        obtain ⟨s', g1, g2, g3⟩ := hraw (x := a ++ [ch%'|']) (raw := c :: raw) (by simp) (a.length + 1)
          { leadState a kept with st := .data, f := (leadState a kept).f.addType FTLeftAnchored, ruleEnd := (leadState a kept).ruleEnd + 1 } rfl
          (by simp only [List.length_cons]; omega)
        refine ⟨s', ?_, behind_data (by rw [g2]; simp) hk (.inr rfl) _ (by
          have hk0 : k ||| 0 = k := BitVec.or_zero
          rw [hk0] at hf
          rw [g3]; simp only [hf]; rfl)⟩
        rw [e0, g1]
        congr 1
        simp only [List.length_append, List.length_cons]
        omega
      · omega
  · rename_i a kept c raw
    subst h1
    simp only [List.length_append, List.length_cons] at hlen
    obtain ⟨k, hk, hf⟩ := hkind a kept
    have e0 : parseLoop line t pr line 0 {} = parseLoop line t pr (c :: raw ++ rest) a.length { leadState a kept with st := .data } := by
      rw [hstart (x := a) (y := c :: raw) (by simp), loop_lead line t pr h2 _ (by omega), List.cons_append,
        loop_enter line t pr c (raw ++ rest) _ _ (.inl ⟨leadState_fresh _ _, h3, h4, fun e => regexFilter_none (h5 e)⟩) (hsub c (by simp)) (hmark (x := a) rfl)]
    obtain ⟨s', g1, g2, g3⟩ := hraw (x := a) (raw := c :: raw) rfl a.length { leadState a kept with st := .data } rfl
      (by simp only [List.length_cons]; omega)
    refine ⟨s', ?_, behind_data (by rw [g2]; simp) hk (.inl rfl) _ (by rw [g3]; simp only [hf]; rfl)⟩
    rw [e0, g1]
    congr 1
    simp only [List.length_append, List.length_cons]

/-- what follows the mark -/
theorem loop_selector (rest : Bytes) (pos : Nat) (s : PLocals) (hs : s.st = .dataOnly) :
    ∃ o, parseLoop line t pr rest pos s = .ok o ∧ o.filter = s.f ∧ ∀ s', o = .fin s' → s'.st = .dataOnly := by
  induction rest generalizing pos s with
  | nil => exact ⟨_, rfl, rfl, fun s' h => by cases h; exact hs⟩
  | cons c rest ih =>
    by_cases hp : pos < 2047
    · rw [parseLoop_cons _ _ _ _ _ _ _ hp]
      unfold parseStep
      rw [if_pos hs, Res.bind_ok]
      exact ih (pos + 1) (s.push c) hs
    · exact ⟨_, parseLoop_long _ _ _ _ _ _ _ (by omega), rfl, fun s' h => by cases h⟩

/-- the mark -/
theorem loop_marker (mark rest : Bytes) (pos : Nat) (s : PLocals) (hs : s.st ≠ .dataOnly)
    (hm : mark ∈ [bs%"##", bs%"#@", bs%"$$"]) (hl : pos < 2047) :
    ∃ s', parseLoop line t pr (mark ++ rest) pos s = parseLoop line t pr rest (pos + 2) s' ∧ s'.st = .dataOnly ∧
      (s'.f.filterType = FTElementHiding ∨ s'.f.filterType = FTElementHidingException ∨
        (s'.f.filterType = FTHTMLFiltering ∧ mark = bs%"$$")) := by
  have key : ∀ c d, mark = [c, d] → (∃ s1, parseStep line t pr c (d :: rest) s = .ok (.two s1) ∧ s1.st = .dataOnly ∧
      (s1.f.filterType = FTElementHiding ∨ s1.f.filterType = FTElementHidingException ∨
        (s1.f.filterType = FTHTMLFiltering ∧ mark = bs%"$$"))) →
      ∃ s', parseLoop line t pr (mark ++ rest) pos s = parseLoop line t pr rest (pos + 2) s' ∧ s'.st = .dataOnly ∧
      (s'.f.filterType = FTElementHiding ∨ s'.f.filterType = FTElementHidingException ∨
        (s'.f.filterType = FTHTMLFiltering ∧ mark = bs%"$$")) := by
    rintro c d rfl ⟨s1, h1, h2, h3⟩
    refine ⟨s1, ?_, h2, h3⟩
    rw [List.cons_append, parseLoop_cons _ _ _ _ _ _ _ hl, List.cons_append, List.nil_append, h1, Res.bind_ok]
    rfl
  simp only [List.mem_cons, List.not_mem_nil, or_false] at hm
  rcases hm with rfl | rfl | rfl
  all_goals
    refine key _ _ rfl ?_
    unfold parseStep
    rw [if_neg hs]
    simp [parseChar]

end

/-- a rule about the contents of pages, with anything before the mark -/
theorem parse_pageLine {line : Bytes} (hclean : ∀ c ∈ line, c ≠ 0 ∧ c ≠ 10 ∧ c ≠ 13) {before mark selector : Bytes}
    (hb : Begins line before (mark ++ selector)) (hm : mark ∈ [bs%"##", bs%"#@", bs%"$$"]) (hlen : before.length < 2047)
    (bad : List Bytes) (pr full : Bool) :
    ∃ f e, parseFilter bad line 0 pr full = .ok (f, e) ∧
      (f.filterType = FTElementHiding ∨ f.filterType = FTElementHidingException ∨ f.filterType = FTHTMLFiltering) ∧
      (mark ≠ bs%"$$" → (f.filterType = FTElementHiding ∨ f.filterType = FTElementHidingException) ∧ e = .none) := by
  have weak : ∀ {k : Mask}, (k = FTElementHiding ∨ k = FTElementHidingException ∨ (k = FTHTMLFiltering ∧ mark = bs%"$$")) →
      (k = FTElementHiding ∨ k = FTElementHidingException ∨ k = FTHTMLFiltering) ∧
        (mark ≠ bs%"$$" → k = FTElementHiding ∨ k = FTElementHidingException) := by
    rintro k (h | h | ⟨h, h'⟩)
    · exact ⟨.inl h, fun _ => .inl h⟩
    · exact ⟨.inr (.inl h), fun _ => .inr h⟩
    · exact ⟨.inr (.inr h), fun hn => absurd h' hn⟩
  obtain ⟨s1, a1, a2⟩ := reach pr hclean (t := 0) (.inl rfl) hb (by omega)
  obtain ⟨s2, b1, b2, b3⟩ := loop_marker (line := line) (t := 0) pr mark selector before.length s1 a2.st hm hlen
  obtain ⟨o, c1, c2, c3⟩ := loop_selector (line := line) (t := 0) pr selector (before.length + 2) s2 b2
  unfold parseFilter
  rw [a1, b1, c1, Res.bind_ok]
  cases o with
  | ret f =>
    have hf : f.filterType = s2.f.filterType := by rw [show f = s2.f from c2]
    refine ⟨f, .none, rfl, ?_⟩
    rw [hf]
    exact ⟨(weak b3).1, fun hn => ⟨(weak b3).2 hn, rfl⟩⟩
  | fin s =>
    dsimp only
    have hst := c3 s rfl
    have hf : s.f = s2.f := c2
    rw [finishFilter_eq _ _ _ _ (by rw [hst]; simp)]
    have hft : (s.result line pr).filterType = s2.f.filterType := by rw [← hf]; rfl
    have hdat : (s.result line pr).data = some (cstr s.data) := rfl
    have hbits : has (s.result line pr).filterType FTHostAnchored = false ∧ has (s.result line pr).filterType FTRegex = false := by
      rw [hft]; rcases (weak b3).1 with h | h | h <;> rw [h] <;> decide
    have hfp : ∃ fp, getFingerprint bad (s.result line pr) = .ok fp := by
      unfold getFingerprint
      rw [hbits.1, hbits.2, hdat]
      simp only [Bool.false_eq_true, if_false, Res.pure_eq, Res.bind_ok]
      obtain ⟨x, hx⟩ := cstrAt_defined s.data
      rw [hx]
      exact ⟨_, rfl⟩
    obtain ⟨fp, hfp⟩ := hfp
    obtain ⟨e, he⟩ := finishWith_ok (full := full) hfp
    refine ⟨_, e, he, by rw [hft]; exact (weak b3).1, fun hn => ⟨by rw [hft]; exact (weak b3).2 hn, ?_⟩⟩
    unfold finishWith at he
    rw [hft] at he
    rcases (weak b3).2 hn with h | h
    · rw [if_pos h] at he
      cases he
      rfl
    · rw [h, if_neg (by decide), if_pos rfl] at he
      cases he
      rfl

/-- a comment, with anything before it -/
theorem parse_remark {line : Bytes} (h : Remark line) (bad : List Bytes) (pr full : Bool) :
    ∃ f, parseFilter bad line 0 pr full = .ok (f, .none) ∧ f.filterType = FTComment ∧ f.data = none ∧ f.domainList = none := by
  obtain ⟨a, kept, rest, hline, hl, hlen, hr⟩ := h
  have h1 : parseLoop line 0 pr line 0 {} = parseLoop line 0 pr rest a.length (leadState a kept) := by
    have : parseLoop line 0 pr line 0 {} = parseLoop line 0 pr (a ++ rest) 0 {} := by congr 1
    rw [this, loop_lead line 0 pr hl rest (by omega)]
  have hk : (leadState a kept).f.data = none ∧ (leadState a kept).f.domainList = none := by
    rcases leadState_kind a kept with h | h <;> rw [h] <;> exact ⟨rfl, rfl⟩
  have hfr := leadState_fresh a kept
  have hbar : ∀ c, (leadState a kept).bar c = leadState a kept := by
    intro c
    unfold PLocals.bar
    rw [if_neg]
    rintro ⟨h, -⟩
    rw [h] at hfr
    cases hfr
  have hnd : ¬ (leadState a kept).st = .dataOnly := fun h => by rw [h] at hfr; cases hfr
  refine ⟨{ (leadState a kept).f with filterType := FTComment }, ?_, rfl, hk⟩
  unfold parseFilter
  rw [h1]
  have key : ∀ {c p}, rest = c :: p → parseStep line 0 pr c p (leadState a kept) = .ok (.stop (.ret { (leadState a kept).f with filterType := FTComment })) →
      (parseLoop line 0 pr rest a.length (leadState a kept) >>= fun o => match o with
        | .ret f => pure (f, Effect.none)
        | .fin s => finishFilter bad line pr full s) = .ok ({ (leadState a kept).f with filterType := FTComment }, .none) := by
    rintro c p rfl h
    rw [parseLoop_cons _ _ _ _ _ _ _ hlen, h]
    rfl
  rcases hr with h | h | ⟨q, h⟩
  · obtain ⟨p, rfl⟩ : ∃ p, rest = ch%'!' :: p := by cases rest with | nil => cases h | cons c p => cases h; exact ⟨p, rfl⟩
    refine key rfl ?_
    unfold parseStep parseChar
    rw [if_neg hnd, hbar, if_neg (by decide), if_neg (by decide), if_pos (by decide), if_pos hfr]
  · obtain ⟨p, rfl⟩ : ∃ p, rest = ch%'[' :: p := by cases rest with | nil => cases h | cons c p => cases h; exact ⟨p, rfl⟩
    refine key rfl ?_
    unfold parseStep parseChar
    rw [if_neg hnd, hbar, if_neg (by decide), if_neg (by decide), if_pos (by decide), if_pos hfr]
  · refine key h.symm ?_
    unfold parseStep parseChar
    rw [if_neg hnd, hbar, if_neg (by decide), if_neg (by decide), if_neg (by decide), if_neg (by decide), if_neg (by decide),
      if_neg (by decide), if_pos rfl, if_pos ⟨hfr, rfl⟩]

/-- a regular expression, with anything before it -/
theorem parse_regexLine {line : Bytes} (h : RegexLine line) (bad : List Bytes) (pr full : Bool) :
    ∃ a kept rest f, line = a ++ ch%'/' :: rest ∧ Lead a kept ∧ parseFilter bad line 0 pr full = .ok (f, .none) ∧ f.filterType = FTRegex ∧
      f.domainList = none ∧ f.data = some (cstr ((line.drop (kept.length + 1)).take (line.length - kept.length - 2))) ∧ f.dataLen = none := by
  obtain ⟨a, kept, rest, hline, hl, hlen, hr1, hr2⟩ := h
  have h1 : parseLoop line 0 pr line 0 {} = parseLoop line 0 pr (ch%'/' :: rest) a.length (leadState a kept) := by
    have : parseLoop line 0 pr line 0 {} = parseLoop line 0 pr (a ++ ch%'/' :: rest) 0 {} := by congr 1
    rw [this, loop_lead line 0 pr hl _ (by omega)]
  have hk : (leadState a kept).f.domainList = none ∧ (leadState a kept).f.dataLen = none := by
    rcases leadState_kind a kept with h | h <;> rw [h] <;> exact ⟨rfl, rfl⟩
  have hfr := leadState_fresh a kept
  have hbar : ∀ c, (leadState a kept).bar c = leadState a kept := by
    intro c
    unfold PLocals.bar
    rw [if_neg]
    rintro ⟨h, -⟩
    rw [h] at hfr
    cases hfr
  have hnd : ¬ (leadState a kept).st = .dataOnly := fun h => by rw [h] at hfr; cases hfr
  have hreg : ∃ f, regexFilter line pr (leadState a kept) = some f ∧ f.filterType = FTRegex ∧ f.domainList = none ∧
      f.data = some (cstr ((line.drop (kept.length + 1)).take (line.length - kept.length - 2))) ∧ f.dataLen = none := by
    have hg : line.getD (line.length - 1) 0 = ch%'/' := by
      rw [List.getLast?_eq_getElem?] at hr1
      simp [hr1]
    unfold regexFilter
    rw [if_pos (by simp only [hg]; simpa using hr2)]
    exact ⟨_, rfl, rfl, hk.1, rfl, hk.2⟩
  obtain ⟨f, f1, f2⟩ := hreg
  refine ⟨a, kept, rest, f, hline, hl, ?_, f2⟩
  unfold parseFilter
  rw [h1, parseLoop_cons _ _ _ _ _ _ _ hlen]
  have : parseStep line 0 pr ch%'/' rest (leadState a kept) = .ok (.stop (.ret f)) := by
    unfold parseStep parseChar
    rw [if_neg hnd, hbar, if_neg (by decide), if_neg (by decide), if_neg (by decide), if_neg (by decide), if_pos rfl, if_pos hfr, f1]
  rw [this]
  rfl

/-- options and nothing else -/
theorem parse_bareOptions {line : Bytes} (h : BareOptions line) (bad : List Bytes) (pr full : Bool) :
    ∃ f, parseFilter bad line 0 pr full = .ok (f, .none) ∧ f.filterType = FTEmpty := by
  obtain ⟨ws, o, hline, hw, hlen, ho⟩ := h
  have h1 : parseLoop line 0 pr line 0 {} = parseLoop line 0 pr (ch%'$' :: o) ws.length (leadState ws []) := by
    have : parseLoop line 0 pr line 0 {} = parseLoop line 0 pr (ws ++ ch%'$' :: o) 0 {} := by congr 1
    rw [this, loop_lead line 0 pr (.blanks hw) _ (by omega)]
  have hat : ch%'@' ∉ ws := fun h => by rcases hw _ h with h | h <;> cases h
  have hst : (leadState ws []).st = .start := by unfold leadState; simp [hat]
  unfold parseFilter
  rw [h1, parseLoop_cons _ _ _ _ _ _ _ hlen]
  have : parseStep line 0 pr ch%'$' o (leadState ws []) = .ok (.stop (.fin ((leadState ws []).dollar line o))) := by
    have hbar : (leadState ws []).bar ch%'$' = leadState ws [] := by
      unfold PLocals.bar
      rw [if_neg (by rw [hst]; simp)]
    unfold parseStep parseChar
    rw [if_neg (by rw [hst]; simp), hbar, if_neg (by decide), if_neg (by decide), if_neg (by decide), if_neg (by decide),
      if_neg (by decide), if_pos rfl, if_neg ho]
  rw [this]
  refine ⟨{ ((leadState ws []).dollar line o).f with filterType := FTEmpty }, ?_, rfl⟩
  · simp only [Res.bind_ok, finishFilter]
    rw [if_pos (show ((leadState ws []).dollar line o).st = .start from hst)]
    rfl

/-- more than 2047 bytes without options -/
theorem parse_longLine {line : Bytes} (hclean : ∀ c ∈ line, c ≠ 0 ∧ c ≠ 10 ∧ c ≠ 13) {before rest : Bytes} (hb : Begins line before rest)
    (hlen : before.length = 2047) (hr : rest ≠ []) (hh : ¬ HasHost line) (bad : List Bytes) (pr full : Bool) :
    ∃ f fp, parseFilter bad line 0 pr full = .ok (f, .none) ∧ f.data = none ∧ f.domainList = none ∧ has f.filterType FTHostOnly = false ∧
      getFingerprint bad f = .ok fp := by
  obtain ⟨s, h1, h2⟩ := reach pr hclean (t := 0) (.inl rfl) hb (by omega)
  obtain ⟨c, p, rfl⟩ := List.exists_cons_of_ne_nil hr
  rw [parseLoop_long _ _ _ _ _ _ _ (by omega)] at h1
  have host : ∀ {a kept raw}, before = a ++ bs%"||" ++ raw → Lead a kept → barHost (raw ++ c :: p) = [] ∧ ¬ OnlyHost (raw ++ c :: p) := by
    intro a kept raw e hl
    have : ¬ (barHost (raw ++ c :: p) ≠ [] ∨ OnlyHost (raw ++ c :: p)) := fun h => hh ⟨a, kept, raw ++ c :: p, by
      rw [hb.parts, e]; simp, hl, by rw [e, List.length_append] at hlen; omega, h⟩
    rw [not_or, Classical.not_not] at this
    exact this
  refine ⟨s.f, none, ?_, h2.none, h2.dom, ?_, ?_⟩
  · unfold parseFilter
    rw [h1]
    rfl
  · cases ho : has s.f.filterType FTHostOnly with
    | false => rfl
    | true =>
      obtain ⟨a, kept, raw, e, hl, h⟩ := h2.only ho
      exact absurd h (host e hl).2
  · cases ha : has s.f.filterType FTHostAnchored with
    | false =>
      unfold getFingerprint
      rw [netBits_regex h2.net, ha, h2.none]
      rfl
    | true =>
      obtain ⟨a, kept, raw, e, hl, h⟩ := h2.anch ha
      rw [(host e hl).1] at h
      exact fingerprint_empty bad h h2.none

theorem regex_text {line : Bytes} (h0 : 0 ∉ line) (i j : Nat) : 0 ∉ (line.drop i).take j :=
  fun h => h0 (List.mem_of_mem_drop (List.mem_of_mem_take h))

/-- what a line without a rule is read as -/
theorem parse_ruleless {line : Bytes} (hclean : ∀ c ∈ line, c ≠ 0 ∧ c ≠ 10 ∧ c ≠ 13) (h : Ruleless line) (bad : List Bytes) (pr full : Bool) :
    ∃ f e, parseFilter bad line 0 pr full = .ok (f, e) ∧ (∃ cl, classify bad f = .ok cl) ∧ ¬ DomainsOverflow bad f ∧
      ((∀ s, ¬ Kind s f) ∨ (Inert f ∧ f.domainList = none)) := by
  have kind : ∀ {f : Filter}, (∀ s, ¬ Kind s f) → ¬ DomainsOverflow bad f := by
    rintro f h ⟨-, ⟨s, hs, -⟩, -⟩
    exact h s hs
  have dom : ∀ {f : Filter}, f.domainList = none → ¬ DomainsOverflow bad f := by
    rintro f h ⟨-, -, dl, h', -⟩
    rw [h] at h'
    cases h'
  cases h with
  | remark h =>
    obtain ⟨f, h1, h2, h3, h4⟩ := parse_remark h bad pr full
    exact ⟨f, _, h1, ⟨_, classify_idle (.inr h2)⟩, dom h4, .inl fun s => by unfold Kind; rw [h2]; cases s <;> decide⟩
  | regex h =>
    obtain ⟨a, kept, rest, f, -, -, h1, h2, h3, h4, h5⟩ := parse_regexLine h bad pr full
    have hfp : getFingerprint bad f = .ok none := by
      unfold getFingerprint
      rw [h2]; rfl
    refine ⟨f, _, h1, classify_ok hfp, dom h3, .inr ⟨⟨by rw [h2]; decide, fun url ctx d bloom => ?_⟩, h3⟩⟩
    rcases matches_regex f h2 (regex_text (fun h => (hclean 0 h).1 rfl) _ _) h4 url ctx d bloom with h | h
    · exact h
    · exact absurd h5 h
  | options h =>
    obtain ⟨f, h1, h2⟩ := parse_bareOptions h bad pr full
    have hk : ∀ s, ¬ Kind s f := fun s => by unfold Kind; rw [h2]; cases s <;> decide
    exact ⟨f, _, h1, ⟨_, classify_idle (.inl h2)⟩, kind hk, .inl hk⟩
  | page hb hm hlen =>
    obtain ⟨f, e, h1, h2, -⟩ := parse_pageLine hclean hb hm hlen bad pr full
    have hk : ∀ s, ¬ Kind s f := fun s => by unfold Kind; rcases h2 with h | h | h <;> rw [h] <;> cases s <;> decide
    refine ⟨f, e, h1, ?_, kind hk, .inl hk⟩
    rcases classify_cosmetic (bad := bad) h2 with h | h | h <;> exact ⟨_, h⟩
  | long hb hlen hr hh =>
    obtain ⟨f, fp, h1, h2, h3, h4, h5⟩ := parse_longLine hclean hb hlen hr hh bad pr full
    exact ⟨f, _, h1, classify_ok h5, dom h3, .inr ⟨⟨h4, fun url ctx d bloom => matches_no_text f h2 url ctx d bloom⟩, h3⟩⟩

/-- these lines can be loaded -/
theorem fillLine_ruleless (E : Env) (pr : Bool) (b : Build E) {line : Bytes} (hclean : ∀ c ∈ line, c ≠ 0 ∧ c ≠ 10 ∧ c ≠ 13)
    (h : Ruleless line) : (∃ cl, lineClass E.bad (line, 0) = .ok cl) ∧ ∃ b', fillLine E pr b (line, 0) = .ok b' := by
  constructor
  · obtain ⟨f, e, h1, h2, -⟩ := parse_ruleless hclean h E.bad false false
    unfold lineClass
    rw [h1, Res.bind_ok]
    exact h2
  · obtain ⟨f, e, h1, h2, h3, -⟩ := parse_ruleless hclean h E.bad pr true
    exact (fillLine_iff pr b (fun h => (hclean 0 h).1 rfl) h1).2 ⟨h2, h3⟩

end AdBlock
