import Verif.Lemmas.ParseFacts
/-! The two passes of `parse`, as folds over the lines of the list. -/
namespace AdBlock
open Spec

/-! #### lines -/

theorem splitLinesLoop_fst (cur s : Bytes) :
    ∀ q qs, lines s = q :: qs → (splitLinesLoop cur s).map Prod.fst = (cur ++ q) :: qs := by
  induction s generalizing cur with
  | nil => intro q qs h; cases h; simp [splitLinesLoop]
  | cons c s ih =>
    intro q qs h
    obtain ⟨q', qs', hq⟩ := List.exists_cons_of_ne_nil (splitOn_ne_nil 10 (s.map fun c => if c = 13 then 10 else c))
    by_cases hc : c = 13 ∨ c = 10
    · have hm : (if c = 13 then (10 : Byte) else c) = 10 := by rcases hc with h | h <;> simp [h]
      have he : isEndOfLine c = true := by rcases hc with rfl | rfl <;> decide
      rw [lines, List.map_cons, hm, splitOn_cons_sep] at h
      cases h
      simp only [splitLinesLoop, he, ↓reduceIte, List.map_cons, List.append_nil, List.cons.injEq, true_and]
      rw [ih [] q' qs' hq, hq]
      rfl
    · have hm : (if c = 13 then (10 : Byte) else c) = c := by rw [if_neg (fun h => hc (.inl h))]
      have he : isEndOfLine c = false := by simpa [isEndOfLine, not_or] using hc
      rw [lines, List.map_cons, hm, splitOn_cons_of_ne (fun h => hc (.inr h)) hq] at h
      simp only [List.cons.injEq] at h
      obtain ⟨rfl, rfl⟩ := h
      simp only [splitLinesLoop, he, Bool.false_eq_true, ↓reduceIte]
      rw [ih (cur ++ [c]) q' qs' hq]
      simp

theorem splitLines_fst (s : Bytes) : (splitLines s).map Prod.fst = lines s := by
  obtain ⟨q, qs, hq⟩ := List.exists_cons_of_ne_nil (splitOn_ne_nil 10 (s.map fun c => if c = 13 then 10 else c))
  unfold splitLines
  rw [splitLinesLoop_fst [] s q qs hq, List.nil_append]
  exact hq.symm

theorem splitLinesLoop_term (cur s : Bytes) : ∀ l ∈ splitLinesLoop cur s, Term l.2 := by
  induction s generalizing cur with
  | nil => intro l hl; simp only [splitLinesLoop, List.mem_singleton] at hl; subst hl; exact .inl rfl
  | cons c s ih =>
    intro l hl
    simp only [splitLinesLoop] at hl
    split at hl
    · rename_i he
      rcases List.mem_cons.1 hl with rfl | hl
      · simp only [isEndOfLine, Bool.or_eq_true, beq_iff_eq] at he
        rcases he with h | h
        · exact .inr (.inr h)
        · exact .inr (.inl h)
      · exact ih _ _ hl
    · exact ih _ _ hl

theorem splitLines_term (s : Bytes) : ∀ l ∈ splitLines s, Term l.2 := splitLinesLoop_term [] s

theorem splitOn_append (sep : Byte) (a b : Bytes) :
    splitOn sep (a ++ sep :: b) = splitOn sep a ++ splitOn sep b := by
  induction a with
  | nil => simp [splitOn]
  | cons c a ih =>
    by_cases hc : c = sep
    · subst hc; simp only [List.cons_append, splitOn_cons_sep, ih]
    · obtain ⟨q, qs, hq⟩ := List.exists_cons_of_ne_nil (splitOn_ne_nil sep a)
      rw [List.cons_append, splitOn_cons_of_ne hc hq, splitOn_cons_of_ne hc (s := a ++ sep :: b) (p := q) (ps := qs ++ splitOn sep b)]
      · rfl
      · rw [ih, hq]; rfl

theorem lines_append (a b : Bytes) {c : Byte} (hc : c = 13 ∨ c = 10) :
    lines (a ++ c :: b) = lines a ++ lines b := by
  have hm : (if c = 13 then (10 : Byte) else c) = 10 := by rcases hc with h | h <;> simp [h]
  unfold lines
  rw [List.map_append, List.map_cons, hm, splitOn_append]

theorem mem_lines {input line : Bytes} (h : line ∈ lines input) : ∀ c ∈ line, c ∈ input ∧ c ≠ 10 ∧ c ≠ 13 := by
  have key : ∀ (s : Bytes) line, line ∈ splitOn 10 s → ∀ c ∈ line, c ∈ s ∧ c ≠ 10 := by
    intro s
    induction s with
    | nil => intro line hl c hc; simp only [splitOn, List.mem_singleton] at hl; subst hl; simp at hc
    | cons d s ih =>
      intro line hl c hc
      by_cases hd : d = 10
      · subst hd
        rw [splitOn_cons_sep] at hl
        rcases List.mem_cons.1 hl with rfl | hl
        · simp at hc
        · exact ⟨List.mem_cons_of_mem _ (ih _ hl c hc).1, (ih _ hl c hc).2⟩
      · obtain ⟨q, qs, hq⟩ := List.exists_cons_of_ne_nil (splitOn_ne_nil 10 s)
        rw [splitOn_cons_of_ne hd hq] at hl
        rcases List.mem_cons.1 hl with rfl | hl
        · rcases List.mem_cons.1 hc with rfl | hc
          · exact ⟨by simp, hd⟩
          · have := ih q (by simp [hq]) c hc
            exact ⟨by simp [this.1], this.2⟩
        · have := ih line (by simp [hq, hl]) c hc
          exact ⟨by simp [this.1], this.2⟩
  intro c hc
  obtain ⟨h1, h2⟩ := key _ _ h c hc
  obtain ⟨d, hd, he⟩ := List.mem_map.1 h1
  by_cases h13 : d = 13
  · rw [if_pos h13] at he; exact absurd he.symm h2
  · rw [if_neg h13] at he; subst he; exact ⟨hd, h2, h13⟩

/-! #### the two passes -/

/-- first pass over one line -/
def lineClass (bad : List Bytes) (l : Bytes × Byte) : Res Class :=
  parseFilter bad l.1 l.2 false false >>= fun x => classify bad x.1

/-- filing without bounds on the arrays -/
def Build.store {E} (b : Build E) (f : Filter) : Class → Res (Build E)
  | .drop => pure b
  | .hostAnchored => pure b
  | .hostAnchoredException => pure b
  | .list id => do
    let b ← match id.domId with
      | none => pure b
      | some d => do
        let s ← addFilterDomainsToHashSet E f (b.domSets d)
        pure { b with domSets := fun i => if i = d then s else b.domSets i }
    pure { b with arr := fun i => if i = id then b.arr i ++ [f] else b.arr i }

/-- entering a parsed rule -/
def Build.enter {E} (b : Build E) (f : Filter) (e : Effect) : Res (Build E) :=
  b.apply f e >>= fun b => classify E.bad f >>= fun cl => b.store f cl

/-- second pass over one line, without bounds on the arrays -/
def fillLine (E : Env) (preserve : Bool) (b : Build E) (l : Bytes × Byte) : Res (Build E) :=
  parseFilter E.bad l.1 l.2 preserve true >>= fun x => b.enter x.1 x.2

/-- second pass, without bounds on the arrays -/
def fill (E : Env) (preserve : Bool) : List (Bytes × Byte) → Build E → Res (Build E)
  | [], b => pure b
  | l :: ls, b => fillLine E preserve b l >>= fill E preserve ls

theorem countPass_cons (bad : List Bytes) (l : Bytes × Byte) (ls : List (Bytes × Byte)) (n : Counts) :
    countPass bad (l :: ls) n = lineClass bad l >>= fun cl => countPass bad ls (n.bump cl) := by
  obtain ⟨line, t⟩ := l
  simp only [countPass, lineClass]
  cases parseFilter bad line t false false with
  | ub u => rfl
  | ok x => rfl

theorem apply_arr {E} {b b' : Build E} {f : Filter} {e : Effect} (h : b.apply f e = .ok b') : b'.arr = b.arr := by
  cases e with
  | none => cases h; rfl
  | addHostException =>
    simp only [Build.apply, Res.bind_eq_ok] at h
    obtain ⟨g, _, h⟩ := h; cases h; rfl
  | addHost =>
    simp only [Build.apply, Res.bind_eq_ok] at h
    obtain ⟨g, _, h⟩ := h; cases h; rfl
  | addExceptionFingerprint w => cases h; rfl
  | addFingerprint w => cases h; rfl

/-- what storing a rule does -/
theorem store_ok {E} {b b' : Build E} {f : Filter} {cl : Class} (h : b.store f cl = .ok b') :
    (∀ id, b'.arr id = if cl = .list id then b.arr id ++ [f] else b.arr id) ∧
    b'.bloom = b.bloom ∧ b'.exceptionBloom = b.exceptionBloom ∧ b'.hostSet = b.hostSet ∧
    b'.hostExceptionSet = b.hostExceptionSet ∧
    (∀ d, (∃ id, cl = .list id ∧ id.domId = some d ∧ addFilterDomainsToHashSet E f (b.domSets d) = .ok (b'.domSets d)) ∨
      ((∀ id, cl = .list id → id.domId ≠ some d) ∧ b'.domSets d = b.domSets d)) := by
  cases cl with
  | drop => cases h; simp
  | hostAnchored => cases h; simp
  | hostAnchoredException => cases h; simp
  | list id =>
    simp only [Build.store] at h
    cases hd : id.domId with
    | none =>
      rw [hd] at h
      simp only [Res.pure_eq, Res.bind_ok, Res.ok.injEq] at h
      subst h
      refine ⟨fun i => ?_, rfl, rfl, rfl, rfl, fun d => .inr ⟨?_, rfl⟩⟩
      · by_cases hi : i = id
        · subst hi; simp
        · have : ¬ (id = i) := fun h => hi h.symm
          simp [hi, this]
      · intro id' h; cases h; simp [hd]
    | some d =>
      rw [hd] at h
      simp only [Res.pure_eq] at h
      rw [Res.bind_eq_ok] at h
      obtain ⟨s, hs, h⟩ := h
      simp only [Res.bind_ok, Res.ok.injEq] at h
      subst h
      refine ⟨fun i => ?_, rfl, rfl, rfl, rfl, fun d' => ?_⟩
      · by_cases hi : i = id
        · subst hi; simp
        · have : ¬ (id = i) := fun h => hi h.symm
          simp [hi, this]
      · by_cases hdd : d' = d
        · subst hdd
          exact .inl ⟨id, rfl, hd, by simp [hs]⟩
        · refine .inr ⟨?_, by simp [hdd]⟩
          intro id' h; cases h
          rw [hd]; simp only [ne_eq, Option.some.injEq]; exact fun h => hdd h.symm

theorem file_eq_store {E} (b : Build E) {cap : ListId → Nat} (f : Filter) (cl : Class)
    (h : ∀ id, cl = .list id → (b.arr id).length < cap id) : b.file cap f cl = b.store f cl := by
  cases cl with
  | drop => rfl
  | hostAnchored => rfl
  | hostAnchoredException => rfl
  | list id =>
    have h := h id rfl
    simp only [Build.file, Build.store]
    cases hd : id.domId with
    | none =>
      simp only [Res.pure_eq, Res.bind_ok]
      rw [if_pos h]
    | some d =>
      simp only
      cases addFilterDomainsToHashSet E f (b.domSets d) with
      | ub u => rfl
      | ok s =>
        simp only [Res.pure_eq, Res.bind_ok]
        rw [if_pos h]

/-- the class of a line is the same in both passes -/
theorem lineClass_pass {bad : List Bytes} {l : Bytes × Byte} {cl : Class} (h : lineClass bad l = .ok cl) (pr : Bool) :
    ∃ f e, parseFilter bad l.1 l.2 pr true = .ok (f, e) ∧ classify bad f = .ok cl := by
  unfold lineClass at h
  rw [Res.bind_eq_ok] at h
  obtain ⟨⟨f, e⟩, hf, h⟩ := h
  obtain ⟨g, e', hg, hs⟩ := parseFilter_passes hf pr
  refine ⟨g, e', hg, ?_⟩
  rw [← classify_strip, hs, classify_strip]; exact h

theorem fillLine_arr {E : Env} {pr : Bool} {b b' : Build E} {l : Bytes × Byte} {cl : Class}
    (hc : lineClass E.bad l = .ok cl) (h : fillLine E pr b l = .ok b') (id : ListId) :
    (b'.arr id).length = (b.arr id).length + if cl = .list id then 1 else 0 := by
  obtain ⟨f, e, hf, hcl⟩ := lineClass_pass hc pr
  unfold fillLine Build.enter at h
  rw [hf, Res.bind_ok, Res.bind_eq_ok] at h
  obtain ⟨b1, h1, h⟩ := h
  rw [hcl, Res.bind_ok] at h
  rw [(store_ok h).1 id, apply_arr h1]
  split <;> simp

theorem bump_lists (n : Counts) (cl : Class) (id : ListId) :
    (n.bump cl).lists id = n.lists id + if cl = .list id then 1 else 0 := by
  cases cl with
  | list i =>
    by_cases h : id = i
    · subst h; simp [Counts.bump]
    · have : ¬ (i = id) := fun e => h e.symm
      simp [Counts.bump, h, this]
  | _ => simp [Counts.bump]

theorem countPass_le {bad : List Bytes} {ls : List (Bytes × Byte)} {n n' : Counts} (h : countPass bad ls n = .ok n')
    (id : ListId) : n.lists id ≤ n'.lists id := by
  induction ls generalizing n with
  | nil => cases h; exact Nat.le_refl _
  | cons l ls ih =>
    rw [countPass_cons, Res.bind_eq_ok] at h
    obtain ⟨cl, _, h⟩ := h
    have := ih h
    rw [bump_lists] at this
    omega

/-- With the arrays sized by the first pass, their bounds do not matter in the second. -/
theorem fillPass_eq {E : Env} {pr : Bool} {cap : ListId → Nat} {ls : List (Bytes × Byte)} {n n' : Counts} {b : Build E}
    (h : countPass E.bad ls n = .ok n')
    (hcap : ∀ id, (b.arr id).length + n'.lists id ≤ cap id + n.lists id) :
    fillPass E pr cap ls b = fill E pr ls b ∧
    ∀ b', fill E pr ls b = .ok b' → ∀ id, (b'.arr id).length + n.lists id = (b.arr id).length + n'.lists id := by
  induction ls generalizing n b with
  | nil => cases h; exact ⟨rfl, fun b' h => by cases h; intro id; rfl⟩
  | cons l ls ih =>
    rw [countPass_cons, Res.bind_eq_ok] at h
    obtain ⟨cl, hcl, h⟩ := h
    obtain ⟨f, e, hf, hcl'⟩ := lineClass_pass hcl pr
    have hle := fun id => countPass_le h id
    constructor
    · obtain ⟨line, t⟩ := l
      simp only [fillPass, fill, fillLine, Build.enter]
      rw [hf, Res.bind_ok, Res.bind_ok]
      cases h1 : b.apply f e with
      | ub u => rfl
      | ok b1 =>
        simp only [Res.bind_ok, hcl']
        have harr := apply_arr h1
        rw [file_eq_store b1 (cap := cap) f cl]
        · cases h2 : b1.store f cl with
          | ub u => rfl
          | ok b2 =>
            rw [Res.bind_ok, Res.bind_ok]
            refine (ih h (fun id => ?_)).1
            rw [(store_ok h2).1 id, bump_lists, harr]
            have := hcap id
            split <;> simp <;> omega
        · intro id hid
          have := hcap id
          have h3 := hle id
          rw [bump_lists, if_pos hid] at h3
          rw [harr]; omega
    · intro b' hb' id
      simp only [fill] at hb'
      rw [Res.bind_eq_ok] at hb'
      obtain ⟨b1, h1, hb'⟩ := hb'
      have hlen := fillLine_arr hcl h1
      have := (ih h (b := b1) (fun id => by
        rw [hlen id, bump_lists]; have := hcap id; omega)).2 b' hb' id
      rw [hlen id, bump_lists] at this
      omega

/-- the client after both passes -/
def Client.finish {E} (c : Client E) (n : Counts) (b : Build E) : Client E :=
  { c with
    lists := b.arr
    numHostAnchoredFilters := c.numHostAnchoredFilters + n.hostAnchored
    numHostAnchoredExceptionFilters := c.numHostAnchoredExceptionFilters + n.hostAnchoredException
    bloom := some b.bloom
    exceptionBloom := some b.exceptionBloom
    hostSet := some b.hostSet
    hostExceptionSet := some b.hostExceptionSet
    domSets := fun d => some (b.domSets d) }

theorem parse_eq {E} (c : Client E) (input : Bytes) (pr : Bool) :
    c.parse input pr =
      countPass E.bad (splitLines input) {} >>= fun n =>
      fill E pr (splitLines input) c.startBuild >>= fun b => .ok (c.finish n b) := by
  unfold Client.parse
  simp only
  cases hn : countPass E.bad (splitLines input) {} with
  | ub u => rw [Res.bind_ub, Res.bind_ub]
  | ok n =>
    rw [Res.bind_ok, Res.bind_ok]
    obtain ⟨h1, h2⟩ := fillPass_eq (E := E) (pr := pr) (cap := fun id => n.lists id + (c.lists id).length)
      (b := c.startBuild) hn (fun id => by
        show (c.lists id).length + _ ≤ _ + 0
        omega)
    rw [h1]
    cases hb : fill E pr (splitLines input) c.startBuild with
    | ub u => rfl
    | ok b =>
      simp only [Res.bind_ok, Res.pure_eq, Res.ok.injEq]
      unfold Client.finish
      congr 1
      funext id
      have := h2 b hb id
      have h3 : (c.startBuild.arr id).length = (c.lists id).length := rfl
      rw [h3] at this
      have h4 : ({} : Counts).lists id = 0 := rfl
      rw [h4] at this
      have h5 : n.lists id + (c.lists id).length - (b.arr id).length = 0 := by omega
      rw [h5]; simp

/-! #### the terminators do not matter -/

theorem lineClass_term (bad : List Bytes) (line : Bytes) {t t' : Byte} (h : Term t) (h' : Term t') :
    lineClass bad (line, t) = lineClass bad (line, t') := by
  unfold lineClass
  rw [parseFilter_term bad line h h']

theorem fillLine_term (E : Env) (pr : Bool) (b : Build E) (line : Bytes) {t t' : Byte} (h : Term t) (h' : Term t') :
    fillLine E pr b (line, t) = fillLine E pr b (line, t') := by
  unfold fillLine
  rw [parseFilter_term E.bad line h h']

/-- the lines with a NUL behind each -/
def nul (ls : List Bytes) : List (Bytes × Byte) := ls.map fun l => (l, 0)

theorem countPass_nul (bad : List Bytes) (ls : List (Bytes × Byte)) (h : ∀ l ∈ ls, Term l.2) (n : Counts) :
    countPass bad ls n = countPass bad (nul (ls.map Prod.fst)) n := by
  induction ls generalizing n with
  | nil => rfl
  | cons l ls ih =>
    obtain ⟨line, t⟩ := l
    simp only [nul, List.map_cons] at ih ⊢
    rw [countPass_cons, countPass_cons, lineClass_term bad line (h (line, t) (by simp)) (.inl rfl)]
    congr 1
    funext cl
    exact ih (fun l hl => h l (by simp [hl])) _

theorem fill_nul (E : Env) (pr : Bool) (ls : List (Bytes × Byte)) (h : ∀ l ∈ ls, Term l.2) (b : Build E) :
    fill E pr ls b = fill E pr (nul (ls.map Prod.fst)) b := by
  induction ls generalizing b with
  | nil => rfl
  | cons l ls ih =>
    obtain ⟨line, t⟩ := l
    simp only [nul, List.map_cons, fill] at ih ⊢
    rw [fillLine_term E pr b line (h (line, t) (by simp)) (.inl rfl)]
    congr 1
    funext b
    exact ih (fun l hl => h l (by simp [hl])) _

/-- `parse` in terms of the lines of its input -/
theorem parse_lines {E} (c : Client E) (input : Bytes) (pr : Bool) :
    c.parse input pr =
      countPass E.bad (nul (lines input)) {} >>= fun n =>
      fill E pr (nul (lines input)) c.startBuild >>= fun b => .ok (c.finish n b) := by
  rw [parse_eq, countPass_nul _ _ (splitLines_term input), splitLines_fst]
  congr 1
  funext n
  rw [fill_nul _ _ _ (splitLines_term input), splitLines_fst]

theorem parse_ok_iff {E} {c c' : Client E} {input : Bytes} {pr : Bool} :
    c.parse input pr = .ok c' ↔ ∃ n b, countPass E.bad (nul (lines input)) {} = .ok n ∧
      fill E pr (nul (lines input)) c.startBuild = .ok b ∧ c' = c.finish n b := by
  rw [parse_lines]
  simp only [Res.bind_eq_ok, Res.ok.injEq]
  constructor
  · rintro ⟨n, h1, b, h2, h3⟩; exact ⟨n, b, h1, h2, h3.symm⟩
  · rintro ⟨n, b, h1, h2, h3⟩; exact ⟨n, h1, b, h2, h3.symm⟩

theorem fill_append (E : Env) (pr : Bool) (l1 l2 : List (Bytes × Byte)) (b : Build E) :
    fill E pr (l1 ++ l2) b = fill E pr l1 b >>= fill E pr l2 := by
  induction l1 generalizing b with
  | nil => rfl
  | cons l l1 ih =>
    simp only [List.cons_append, fill]
    cases fillLine E pr b l with
    | ub u => rfl
    | ok b1 => simp only [Res.bind_ok]; exact ih b1

theorem countPass_append (bad : List Bytes) (l1 l2 : List (Bytes × Byte)) (n : Counts) :
    countPass bad (l1 ++ l2) n = countPass bad l1 n >>= countPass bad l2 := by
  induction l1 generalizing n with
  | nil => rfl
  | cons l l1 ih =>
    simp only [List.cons_append, countPass_cons]
    cases lineClass bad l with
    | ub u => rfl
    | ok cl => simp only [Res.bind_ok]; exact ih _

/-- sum of counters -/
def Counts.plus (a b : Counts) : Counts where
  lists := fun id => a.lists id + b.lists id
  hostAnchored := a.hostAnchored + b.hostAnchored
  hostAnchoredException := a.hostAnchoredException + b.hostAnchoredException

theorem bump_plus (a b : Counts) (cl : Class) : (a.plus b).bump cl = a.plus (b.bump cl) := by
  cases cl with
  | list id =>
    simp only [Counts.plus, Counts.bump, Counts.mk.injEq, and_self, and_true]
    funext i
    split <;> omega
  | drop => rfl
  | hostAnchored => simp [Counts.plus, Counts.bump]; omega
  | hostAnchoredException => simp [Counts.plus, Counts.bump]; omega

theorem countPass_plus (bad : List Bytes) (ls : List (Bytes × Byte)) (a b : Counts) :
    countPass bad ls (a.plus b) = a.plus <$> countPass bad ls b := by
  induction ls generalizing b with
  | nil => rfl
  | cons l ls ih =>
    simp only [countPass_cons]
    cases lineClass bad l with
    | ub u => rfl
    | ok cl => simp only [Res.bind_ok]; rw [bump_plus, ih]

theorem plus_zero (a : Counts) : a.plus {} = a := by cases a; simp [Counts.plus]

theorem countPass_from (bad : List Bytes) (ls : List (Bytes × Byte)) (a : Counts) :
    countPass bad ls a = a.plus <$> countPass bad ls {} := by
  conv => lhs; rw [← plus_zero a]
  exact countPass_plus _ _ _ _

theorem nul_append (a b : List Bytes) : nul (a ++ b) = nul a ++ nul b := List.map_append

end AdBlock
