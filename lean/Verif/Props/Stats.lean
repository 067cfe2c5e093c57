import Verif.Props.History
/-
The detection of bad fingerprints (C54) and the statistics (C55).
-/
namespace AdBlock
open Spec

/-! ### specification -/

/-- `w` is the leftmost part of `url` of six bytes which occurs in the index `i`. -/
def Spec.FirstFound (E : Env) (i : E.fp.B) (url w : Bytes) : Prop :=
  w.length = 6 ∧ E.fp.mem i w = true ∧ ∃ before after, url = before ++ w ++ after ∧
    ∀ before' w' after', url = before' ++ w' ++ after' → w'.length = 6 → E.fp.mem i w' = true → before.length ≤ before'.length

/-- The collected fingerprints before and after a query for `url` whose search in the index
`b` was in vain: nothing changes while detection is off; else the first fingerprint of the
address that occurs in the index, if there is one, is collected if it is not yet. -/
def Spec.Collected (E : Env) (b : Option E.fp.B) (url : Bytes) : Option (List Bytes) → Option (List Bytes) → Prop
  | none, new => new = none
  | some old, new =>
    ((∀ i w, b = some i → w <:+: url → w.length = 6 → E.fp.mem i w = false) ∧ new = some old) ∨
    ∃ i w, b = some i ∧ FirstFound E i url w ∧ new = some (if w ∈ old then old else old ++ [w])

/-- What a query of `c` with the outcome `o` may count and collect. -/
inductive Spec.QueryEffect {E : Env} (c : Client E) (url : Bytes) (o : Outcome E) : Prop
  /-- no search of an index decided -/
  | nothing : o.block = false → o.stats = c.stats → o.badFps = c.badFps → QueryEffect c url o
  /-- the indexes show that no rule can match -/
  | saved : o.block = false → o.filter = none → o.badFps = c.badFps →
      o.stats = { c.stats with numBloomFilterSaves := c.stats.numBloomFilterSaves + 1
                               numHashSetSaves := c.stats.numHashSetSaves + 1 } → QueryEffect c url o
  /-- no rule matched although the index did not exclude it -/
  | falsePositive : o.block = false → o.filter = none → Collected E c.bloom url c.badFps o.badFps →
      o.stats = { c.stats with numFalsePositives := c.stats.numFalsePositives + 1 } → QueryEffect c url o
  /-- the same for exceptions -/
  | exceptionSaved : o.block = true → o.exception = none → o.badFps = c.badFps →
      o.stats = { c.stats with numExceptionBloomFilterSaves := c.stats.numExceptionBloomFilterSaves + 1
                               numExceptionHashSetSaves := c.stats.numExceptionHashSetSaves + 1 } → QueryEffect c url o
  | exceptionFalsePositive : o.block = true → o.exception = none → Collected E c.exceptionBloom url c.badFps o.badFps →
      o.stats = { c.stats with numExceptionFalsePositives := c.stats.numExceptionFalsePositives + 1 } → QueryEffect c url o
  /-- the hash set of exceptions decided -/
  | hostException : o.block = false → o.badFps = c.badFps →
      o.stats = { c.stats with numExceptionHashSetSaves := c.stats.numExceptionHashSetSaves + 1 } → QueryEffect c url o

/-- The operations since the last `clear`. -/
def Spec.sinceClear : List (Op × Answer) → List (Op × Answer)
  | [] => []
  | x :: xs => if ∃ y ∈ xs, y.1 = .clear then sinceClear xs else if x.1 = .clear then xs else x :: xs

/-- A call of `matches` with the answer "block". -/
def Spec.blockedCall : Op × Answer → Bool
  | (.matches .., .verdict true _ _) => true
  | _ => false

/-! ### proofs -/

theorem mem_windows_iff {n : Nat} (hn : 0 < n) {s w : Bytes} : w ∈ windows n s ↔ w <:+: s ∧ w.length = n := by
  induction s with
  | nil =>
    simp only [windows, List.not_mem_nil, List.infix_nil, false_iff, not_and]
    rintro rfl
    simp only [List.length_nil]
    omega
  | cons c s ih =>
    unfold windows
    split
    · rename_i hl
      rw [List.mem_cons, ih, List.infix_cons_iff]
      constructor
      · rintro (rfl | ⟨h1, h2⟩)
        · exact ⟨.inl (List.take_prefix _ _), by rw [List.length_take]; omega⟩
        · exact ⟨.inr h1, h2⟩
      · rintro ⟨h1 | h1, h2⟩
        · exact .inl (by rw [← h2]; exact List.prefix_iff_eq_take.1 h1)
        · exact .inr ⟨h1, h2⟩
    · rename_i hl
      simp only [List.not_mem_nil, false_iff, not_and]
      intro h1 h2
      have := h1.length_le
      omega

theorem find_windows {n : Nat} (hn : 0 < n) {p : Bytes → Bool} {s w : Bytes} (h : (windows n s).find? p = some w) :
    w.length = n ∧ p w = true ∧ ∃ b a, s = b ++ w ++ a ∧
      ∀ b' w' a', s = b' ++ w' ++ a' → w'.length = n → p w' = true → b.length ≤ b'.length := by
  refine ⟨((mem_windows_iff hn).1 (List.mem_of_find?_eq_some h)).2, List.find?_some h, ?_⟩
  induction s with
  | nil => cases h
  | cons c s ih =>
    unfold windows at h
    split at h
    · rw [List.find?_cons] at h
      split at h
      · cases h
        exact ⟨[], (c :: s).drop n, (List.take_append_drop n (c :: s)).symm, by intros; simp⟩
      · rename_i hp
        obtain ⟨b, a, e, hb⟩ := ih h
        refine ⟨c :: b, a, by rw [e]; rfl, fun b' w' a' e' hl hw => ?_⟩
        cases b' with
        | nil =>
          exfalso
          have : w' = (c :: s).take n := by
            rw [e', List.nil_append, List.take_append_of_le_length (by omega), List.take_of_length_le (by omega)]
          rw [this, hp] at hw
          cases hw
        | cons x b' =>
          simp only [List.cons_append, List.cons.injEq] at e'
          have := hb b' w' a' e'.2 hl hw
          simpa using this
    · cases h

theorem discover_collected {E : Env} {b : Option E.fp.B} {url : Bytes} {l l' : List Bytes}
    (h : discoverMatchingPrefix E l url b = .ok l') : Collected E b url (some l) (some l') := by
  unfold discoverMatchingPrefix at h
  split at h
  · rename_i hw
    cases h
    refine .inl ⟨fun i w _ h1 h2 => ?_, rfl⟩
    have : w ∈ windows kFingerprintSize url := (mem_windows_iff (by decide)).2 ⟨h1, h2⟩
    rw [hw] at this
    cases this
  · cases h
  · rename_i i
    split at h
    · rename_i hw
      cases h
      refine .inl ⟨fun j w e h1 h2 => ?_, rfl⟩
      cases e
      have := List.find?_eq_none.1 hw w ((mem_windows_iff (by decide)).2 ⟨h1, h2⟩)
      simpa using this
    · rename_i w hw
      cases h
      obtain ⟨h1, h2, h3⟩ := find_windows (by decide) hw
      refine .inr ⟨_, w, rfl, ⟨h1, h2, h3⟩, ?_⟩
      by_cases hc : w ∈ l <;> simp [hc]

section
variable {E : Env} {c : Client E} {url : Bytes}

theorem blockPhase_effect {ctx : Mask} {dom : Option Bytes} {o : Outcome E}
    (h : c.blockPhase url ctx dom = .ok (.done o)) : QueryEffect c url o := by
  unfold Client.blockPhase at h
  obtain ⟨r, _, h⟩ := Res.bind_eq_ok.1 h
  cases r with
  | some f => cases h
  | none =>
    simp only at h
    obtain ⟨r, hr, h⟩ := Res.bind_eq_ok.1 h
    split at h
    · rename_i hm
      cases h
      refine .saved rfl ?_ rfl rfl
      show r.found = none
      unfold isHostAnchoredHashSetMiss at hr
      simp only [Bool.and_eq_true] at hm
      split at hr
      · cases hr; cases hm.2
      · obtain ⟨x, _, hr⟩ := Res.bind_eq_ok.1 hr
        cases hr
        simpa using hm.2
    · split at h
      · cases h
      · obtain ⟨m, _, h⟩ := Res.bind_eq_ok.1 h
        cases m with
        | some f => cases h
        | none =>
          simp only at h
          cases hb : c.badFps with
          | none =>
            rw [hb] at h
            cases h
            exact .falsePositive rfl rfl (by rw [hb]; rfl) rfl
          | some l =>
            rw [hb] at h
            obtain ⟨l', hl, h⟩ := Res.bind_eq_ok.1 h
            cases h
            exact .falsePositive rfl rfl (by rw [hb]; exact discover_collected hl) rfl

theorem exceptionPhase_effect {ctx : Mask} {dom : Option Bytes} {mf : Option Filter} {o : Outcome E}
    (h : c.exceptionPhase mf url ctx dom = .ok o) : QueryEffect c url o := by
  unfold Client.exceptionPhase at h
  obtain ⟨r, _, h⟩ := Res.bind_eq_ok.1 h
  cases r with
  | some f => cases h; exact .nothing rfl rfl rfl
  | none =>
    simp only at h
    obtain ⟨r, hr, h⟩ := Res.bind_eq_ok.1 h
    split at h
    · rename_i hm
      cases h
      refine .exceptionSaved rfl ?_ rfl rfl
      show r.found = none
      unfold isHostAnchoredHashSetMiss at hr
      simp only [Bool.and_eq_true] at hm
      split at hr
      · cases hr; cases hm.2
      · obtain ⟨x, _, hr⟩ := Res.bind_eq_ok.1 hr
        cases hr
        simpa using hm.2
    · split at h
      · cases h; exact .hostException rfl rfl rfl
      · obtain ⟨m, _, h⟩ := Res.bind_eq_ok.1 h
        cases m with
        | some f => cases h; exact .nothing rfl rfl rfl
        | none =>
          simp only at h
          cases hb : c.badFps with
          | none =>
            rw [hb] at h
            cases h
            exact .exceptionFalsePositive rfl rfl (by rw [hb]; rfl) rfl
          | some l =>
            rw [hb] at h
            obtain ⟨l', hl, h⟩ := Res.bind_eq_ok.1 h
            cases h
            exact .exceptionFalsePositive rfl rfl (by rw [hb]; exact discover_collected hl) rfl

/-- **C54**, **C55**, for a single query of any client: what it counts and collects. -/
theorem C55_query {co : Mask} {dom : Option Bytes} {o : Outcome E} (h : c.query url co dom = .ok o) : QueryEffect c url o := by
  unfold Client.query at h
  obtain ⟨b, _, h⟩ := Res.bind_eq_ok.1 h
  cases b with
  | false => cases h; exact .nothing rfl rfl rfl
  | true =>
    simp only [Bool.not_true, Bool.false_eq_true, ↓reduceIte] at h
    obtain ⟨x, hx, h⟩ := Res.bind_eq_ok.1 h
    cases x with
    | done o' => cases h; exact blockPhase_effect hx
    | hit f => exact exceptionPhase_effect h

/-- **C54** for a single query: what it collects.  Either it adds nothing, or its search in the index
of rules or that of exceptions was in vain (which the statistics show), and it adds the leftmost six
bytes of the address which occur in this index, unless there are none or they are collected already. -/
theorem C54_collects {co : Mask} {dom : Option Bytes} {o : Outcome E} (h : c.query url co dom = .ok o) :
    (o.badFps = c.badFps ∧ o.stats.numFalsePositives = c.stats.numFalsePositives ∧
      o.stats.numExceptionFalsePositives = c.stats.numExceptionFalsePositives) ∨
    (o.stats.numFalsePositives = c.stats.numFalsePositives + 1 ∧ Collected E c.bloom url c.badFps o.badFps) ∨
    (o.stats.numExceptionFalsePositives = c.stats.numExceptionFalsePositives + 1 ∧
      Collected E c.exceptionBloom url c.badFps o.badFps) := by
  cases C55_query h with
  | nothing _ hs h => exact .inl ⟨h, by rw [hs], by rw [hs]⟩
  | saved _ _ h hs => exact .inl ⟨h, by rw [hs], by rw [hs]⟩
  | falsePositive _ _ h hs => exact .inr (.inl ⟨by rw [hs], h⟩)
  | exceptionSaved _ _ h hs => exact .inl ⟨h, by rw [hs], by rw [hs]⟩
  | exceptionFalsePositive _ _ h hs => exact .inr (.inr ⟨by rw [hs], h⟩)
  | hostException _ h hs => exact .inl ⟨h, by rw [hs], by rw [hs]⟩

/-- **C54** for a single query: while detection is on, a query adds at most one fingerprint, of
six bytes, which is part of the address. -/
theorem C54_query {co : Mask} {dom : Option Bytes} {o : Outcome E} (h : c.query url co dom = .ok o) :
    (c.badFps = none → o.badFps = none) ∧
    ∀ l, c.badFps = some l → o.badFps = some l ∨ ∃ w, w <:+: url ∧ w.length = 6 ∧ w ∉ l ∧ o.badFps = some (l ++ [w]) := by
  have hc : ∀ b, Collected E b url c.badFps o.badFps → (c.badFps = none → o.badFps = none) ∧
      ∀ l, c.badFps = some l → o.badFps = some l ∨ ∃ w, w <:+: url ∧ w.length = 6 ∧ w ∉ l ∧ o.badFps = some (l ++ [w]) := by
    intro b h
    cases hb : c.badFps with
    | none => rw [hb] at h; exact ⟨fun _ => h, by simp⟩
    | some old =>
      rw [hb] at h
      refine ⟨by simp, fun l hl => ?_⟩
      cases hl
      rcases h with h | ⟨i, w, _, ⟨h1, _, pre, post, h2, _⟩, h4⟩
      · exact .inl h.2
      · by_cases hw : w ∈ old
        · rw [if_pos hw] at h4; exact .inl h4
        · rw [if_neg hw] at h4
          exact .inr ⟨w, ⟨pre, post, h2.symm⟩, h1, hw, h4⟩
  have hs : o.badFps = c.badFps → (c.badFps = none → o.badFps = none) ∧
      ∀ l, c.badFps = some l → o.badFps = some l ∨ ∃ w, w <:+: url ∧ w.length = 6 ∧ w ∉ l ∧ o.badFps = some (l ++ [w]) :=
    fun h => ⟨fun e => h.trans e, fun l hl => .inl (h.trans hl)⟩
  cases C55_query h with
  | nothing _ _ h => exact hs h
  | saved _ _ h _ => exact hs h
  | falsePositive _ _ h _ => exact hc _ h
  | exceptionSaved _ _ h _ => exact hs h
  | exceptionFalsePositive _ _ h _ => exact hc _ h
  | hostException _ h _ => exact hs h

end

theorem foldl_insert {l : List Bytes} {acc : List Bytes} (hn : acc.Nodup) :
    let r := l.foldl (fun l w => if l.contains w then l else l ++ [w]) acc
    r.Nodup ∧ ∀ w, w ∈ r ↔ w ∈ acc ∨ w ∈ l := by
  induction l generalizing acc with
  | nil => simp [hn]
  | cons x l ih =>
    simp only [List.foldl_cons]
    by_cases hx : x ∈ acc
    · rw [if_pos (by simpa using hx)]
      refine ⟨(ih hn).1, fun w => ?_⟩
      rw [(ih hn).2, List.mem_cons]
      constructor
      · rintro (h | h) <;> simp [h]
      · rintro (h | rfl | h) <;> simp [*]
    · rw [if_neg (by simpa using hx)]
      have hn' : (acc ++ [x]).Nodup := by
        rw [List.nodup_append]
        exact ⟨hn, by simp, by intro a ha b hb; rw [List.mem_singleton] at hb; subst hb; rintro rfl; exact hx ha⟩
      refine ⟨(ih hn').1, fun w => ?_⟩
      rw [(ih hn').2, List.mem_append, List.mem_singleton, List.mem_cons, or_assoc]

section
variable {E : Env}

/-- what one operation does to the collected fingerprints -/
theorem step_collected {c c' : Client E} {op : Op} {a : Answer} (h : step c op = .ok (a, c')) {l' : List Bytes}
    (hl : c'.badFps = some l') :
    (c.badFps = some l') ∨
    (∃ l w url ctx dom, c.badFps = some l ∧ l' = l ++ [w] ∧ w ∉ l ∧ op = .matches url ctx dom ∧ w <:+: url ∧ w.length = 6) ∨
    (c.badFps = none ∧ op = .enableBadFingerprintDetection ∧ l'.Nodup ∧ ∀ w, w ∈ l' ↔ w ∈ E.bad) := by
  cases op with
  | parse input pr =>
    simp only [step] at h
    obtain ⟨x, hx, h⟩ := Res.map_eq_ok.1 h
    cases h
    left
    rw [← hl]
    rw [parse_eq] at hx
    obtain ⟨n, _, hx⟩ := Res.bind_eq_ok.1 hx
    obtain ⟨b, _, hx⟩ := Res.bind_eq_ok.1 hx
    cases hx
    rfl
  | «matches» url ctx dom =>
    simp only [step] at h
    obtain ⟨o, ho, h⟩ := Res.map_eq_ok.1 h
    cases h
    obtain ⟨h1, h2⟩ := C54_query ho
    cases hb : c.badFps with
    | none => rw [show o.badFps = some l' from hl] at h1; cases h1 hb
    | some l =>
      rcases h2 l hb with h3 | ⟨w, h4, h5, h6, h7⟩
      · rw [show o.badFps = some l' from hl] at h3; cases h3; exact .inl rfl
      · rw [show o.badFps = some l' from hl] at h7; cases h7
        exact .inr (.inl ⟨l, w, url, ctx, dom, rfl, rfl, h6, rfl, h4, h5⟩)
  | find url ctx dom =>
    simp only [step] at h
    obtain ⟨o, ho, h⟩ := Res.map_eq_ok.1 h
    cases h
    exact .inl hl
  | addTag t => cases h; left; rw [← hl]; unfold Client.addTag; split <;> rfl
  | removeTag t => cases h; exact .inl hl
  | tagExists t => cases h; exact .inl hl
  | clear => cases h; cases hl
  | enableBadFingerprintDetection =>
    cases h
    cases hb : c.badFps with
    | some l => unfold Client.enableBadFingerprintDetection at hl; rw [hb] at hl; simp only at hl; rw [hb] at hl; exact .inl hl
    | none =>
      unfold Client.enableBadFingerprintDetection at hl
      rw [hb] at hl
      cases hl
      obtain ⟨h1, h2⟩ := foldl_insert (l := E.bad) (acc := []) List.nodup_nil
      exact .inr (.inr ⟨rfl, rfl, h1, by simpa using h2⟩)

/-- a step from the front of a run -/
theorem run_cons_ok {c c' : Client E} {op : Op} {ops : List Op} {as : List Answer} (h : run c (op :: ops) = .ok (as, c')) :
    ∃ a as' c1, as = a :: as' ∧ step c op = .ok (a, c1) ∧ run c1 ops = .ok (as', c') := by
  simp only [run] at h
  obtain ⟨x, h1, h⟩ := Res.bind_eq_ok.1 h
  obtain ⟨y, h2, h⟩ := Res.bind_eq_ok.1 h
  cases h
  exact ⟨x.1, y.1, x.2, rfl, h1, h2⟩

/-- **C54**: after any sequence of operations on a new client, the collected fingerprints are
without repetition, and each of them is either in the built-in list or six bytes long and
part of the address of a query. -/
theorem C54_origin {c : Client E} {ops : List Op} {as : List Answer} (h : run (Client.fresh E) ops = .ok (as, c))
    {l : List Bytes} (hl : c.badFps = some l) :
    l.Nodup ∧ ∀ w ∈ l, w ∈ E.bad ∨ (w.length = 6 ∧ ∃ url ctx dom, Op.matches url ctx dom ∈ ops ∧ w <:+: url) := by
  have key : ∀ (ops : List Op) (c0 c : Client E) (as : List Answer) (P : Bytes → Prop), run c0 ops = .ok (as, c) →
      (∀ l, c0.badFps = some l → l.Nodup ∧ ∀ w ∈ l, w ∈ E.bad ∨ P w) →
      ∀ l, c.badFps = some l → l.Nodup ∧ ∀ w ∈ l, w ∈ E.bad ∨ P w ∨
        (w.length = 6 ∧ ∃ url ctx dom, Op.matches url ctx dom ∈ ops ∧ w <:+: url) := by
    intro ops
    induction ops with
    | nil =>
      intro c0 c as P h h0 l hl
      cases h
      obtain ⟨h1, h2⟩ := h0 l hl
      exact ⟨h1, fun w hw => (h2 w hw).elim .inl fun h => .inr (.inl h)⟩
    | cons op ops ih =>
      intro c0 c as P h h0 l hl
      obtain ⟨a, as', c1, _, hs, hr⟩ := run_cons_ok h
      obtain ⟨h1, h2⟩ := ih c1 c as' (fun w => P w ∨ (w.length = 6 ∧ ∃ url ctx dom, op = .matches url ctx dom ∧ w <:+: url)) hr
        (by
          intro l1 hl1
          rcases step_collected hs hl1 with e | ⟨l0, w, url, ctx, dom, e0, rfl, hw, rfl, hi, hlen⟩ | ⟨e0, _, hn, hm⟩
          · obtain ⟨h1, h2⟩ := h0 l1 e
            exact ⟨h1, fun w hw => (h2 w hw).elim .inl fun h => .inr (.inl h)⟩
          · obtain ⟨h1, h2⟩ := h0 l0 e0
            refine ⟨?_, fun x hx => ?_⟩
            · rw [List.nodup_append]
              exact ⟨h1, by simp, by intro a ha b hb; rw [List.mem_singleton] at hb; subst hb; rintro rfl; exact hw ha⟩
            · rcases List.mem_append.1 hx with hx | hx
              · exact (h2 x hx).elim .inl fun h => .inr (.inl h)
              · rw [List.mem_singleton] at hx
                subst hx
                exact .inr (.inr ⟨hlen, url, ctx, dom, rfl, hi⟩)
          · exact ⟨hn, fun w hw => .inl ((hm w).1 hw)⟩) l hl
      refine ⟨h1, fun w hw => ?_⟩
      rcases h2 w hw with h | (h | ⟨hlen, url, ctx, dom, rfl, hi⟩) | ⟨hlen, url, ctx, dom, hm, hi⟩
      · exact .inl h
      · exact .inr (.inl h)
      · exact .inr (.inr ⟨hlen, url, ctx, dom, by simp, hi⟩)
      · exact .inr (.inr ⟨hlen, url, ctx, dom, by simp [hm], hi⟩)
  obtain ⟨h1, h2⟩ := key ops _ c as (fun _ => False) h (by intro l hl; cases hl) l hl
  exact ⟨h1, fun w hw => (h2 w hw).imp id fun h => h.resolve_left id⟩

/-- **C54**: fingerprints once collected stay collected, in order, until `clear`. -/
theorem C54_kept {c c' : Client E} {ops : List Op} {as : List Answer} (h : run c ops = .ok (as, c')) (hc : .clear ∉ ops)
    {l : List Bytes} (hl : c.badFps = some l) : ∃ l', c'.badFps = some (l ++ l') := by
  induction ops generalizing c as l with
  | nil => cases h; exact ⟨[], by simpa using hl⟩
  | cons op ops ih =>
    simp only [List.mem_cons, not_or] at hc
    obtain ⟨a, as', c1, _, hs, hr⟩ := run_cons_ok h
    have : ∃ l1, c1.badFps = some (l ++ l1) := by
      cases op with
      | parse input pr =>
        simp only [step] at hs
        obtain ⟨x, hx, hs⟩ := Res.map_eq_ok.1 hs
        cases hs
        rw [parse_eq] at hx
        obtain ⟨n, _, hx⟩ := Res.bind_eq_ok.1 hx
        obtain ⟨b, _, hx⟩ := Res.bind_eq_ok.1 hx
        cases hx
        exact ⟨[], hl.trans (by simp)⟩
      | «matches» url ctx dom =>
        simp only [step] at hs
        obtain ⟨o, ho, hs⟩ := Res.map_eq_ok.1 hs
        cases hs
        rcases (C54_query ho).2 l hl with h3 | ⟨w, _, _, _, h7⟩
        · exact ⟨[], by simpa using h3⟩
        · exact ⟨[w], h7⟩
      | find url ctx dom =>
        simp only [step] at hs
        obtain ⟨o, ho, hs⟩ := Res.map_eq_ok.1 hs
        cases hs
        exact ⟨[], by simpa using hl⟩
      | addTag t => cases hs; refine ⟨[], ?_⟩; rw [List.append_nil, ← hl]; unfold Client.addTag; split <;> rfl
      | removeTag t => cases hs; exact ⟨[], hl.trans (by simp)⟩
      | tagExists t => cases hs; exact ⟨[], by simpa using hl⟩
      | clear => exact absurd rfl hc.1
      | enableBadFingerprintDetection =>
        cases hs
        refine ⟨[], ?_⟩
        unfold Client.enableBadFingerprintDetection
        rw [hl]
        simpa using hl
    obtain ⟨l1, h1⟩ := this
    obtain ⟨l2, h2⟩ := ih hr hc.2 h1
    exact ⟨l1 ++ l2, by rw [h2, List.append_assoc]⟩

/-- **C54** for a call of `matches`: what is collected is found in the client afterwards. -/
theorem C54_matches {c : Client E} {url : Bytes} {co : Mask} {dom : Option Bytes} {b : Bool} {c' : Client E} (h : c.matches url co dom = .ok (b, c')) :
    (c'.badFps = c.badFps ∧ c'.stats.numFalsePositives = c.stats.numFalsePositives ∧
      c'.stats.numExceptionFalsePositives = c.stats.numExceptionFalsePositives) ∨
    (c'.stats.numFalsePositives = c.stats.numFalsePositives + 1 ∧ Collected E c.bloom url c.badFps c'.badFps) ∨
    (c'.stats.numExceptionFalsePositives = c.stats.numExceptionFalsePositives + 1 ∧
      Collected E c.exceptionBloom url c.badFps c'.badFps) := by
  unfold Client.matches at h
  obtain ⟨o, ho, h⟩ := Res.bind_eq_ok.1 h
  cases h
  exact C54_collects ho

/-- **C54** for all other operations: only the start of the detection and `clear` change what is collected; the detection starts with the
built-in list, and starting it again changes nothing. -/
theorem C54_others {c c' : Client E} {op : Op} {a : Answer} (h : step c op = .ok (a, c')) :
    match op with
    | .matches .. => True
    | .clear => c'.badFps = none
    | .enableBadFingerprintDetection =>
      ∃ l, c'.badFps = some l ∧ (c.badFps = some l ∨ (c.badFps = none ∧ l.Nodup ∧ ∀ w, w ∈ l ↔ w ∈ E.bad))
    | _ => c'.badFps = c.badFps := by
  cases op with
  | parse input pr =>
    simp only [step] at h
    obtain ⟨x, hx, h⟩ := Res.map_eq_ok.1 h
    cases h
    rw [parse_eq] at hx
    obtain ⟨n, _, hx⟩ := Res.bind_eq_ok.1 hx
    obtain ⟨b, _, hx⟩ := Res.bind_eq_ok.1 hx
    cases hx
    rfl
  | «matches» url ctx dom => trivial
  | find url ctx dom =>
    simp only [step] at h
    obtain ⟨o, ho, h⟩ := Res.map_eq_ok.1 h
    cases h
    rfl
  | addTag t => cases h; show (c.addTag t).badFps = _; unfold Client.addTag; split <;> rfl
  | removeTag t => cases h; rfl
  | tagExists t => cases h; rfl
  | clear => cases h; rfl
  | enableBadFingerprintDetection =>
    have hs : ∃ l, c'.badFps = some l := by
      cases h
      cases hb : c.badFps with
      | some l => exact ⟨l, by unfold Client.enableBadFingerprintDetection; rw [hb]; exact hb⟩
      | none => exact ⟨_, by unfold Client.enableBadFingerprintDetection; rw [hb]⟩
    obtain ⟨l, hl⟩ := hs
    refine ⟨l, hl, ?_⟩
    rcases step_collected h hl with e | ⟨_, _, _, _, _, _, _, _, e, _⟩ | ⟨e, _, h1, h2⟩
    · exact .inl e
    · cases e
    · exact .inr ⟨e, h1, h2⟩

/-- **C54**, an example: detection is started, and starting it again is a step too. -/
example : ∃ c c' : Client toyEnv, step (Client.fresh toyEnv) .enableBadFingerprintDetection = .ok (.done, c) ∧ c.badFps = some toyEnv.bad ∧
    step c .enableBadFingerprintDetection = .ok (.done, c') := ⟨_, _, rfl, by decide +kernel, rfl⟩

/-! ### C55 -/

/-- **C55**: a call of `matches` is the operation of the sequences: it tells whether to block, and the client afterwards is the same. -/
theorem C55_matches {c c' : Client E} {url : Bytes} {co : Mask} {dom : Option Bytes} {b : Bool} :
    c.matches url co dom = .ok (b, c') ↔ ∃ f e, step c (.matches url co dom) = .ok (.verdict b f e, c') := by
  unfold Client.matches step
  constructor
  · intro h
    obtain ⟨o, ho, h⟩ := Res.bind_eq_ok.1 h
    cases h
    exact ⟨o.filter, o.exception, Res.map_eq_ok.2 ⟨o, ho, rfl⟩⟩
  · rintro ⟨f, e, h⟩
    obtain ⟨o, ho, h⟩ := Res.map_eq_ok.1 h
    cases h
    exact Res.bind_eq_ok.2 ⟨o, ho, rfl⟩

/-- the number of blocked requests according to the statistics -/
def Stats.blocked (s : Stats) : Nat := s.numExceptionBloomFilterSaves + s.numExceptionFalsePositives

theorem step_blocked {c c' : Client E} {op : Op} {a : Answer} (h : step c op = .ok (a, c')) (hop : op ≠ .clear) :
    c'.stats.blocked = c.stats.blocked + if blockedCall (op, a) then 1 else 0 := by
  cases op with
  | parse input pr =>
    simp only [step] at h
    obtain ⟨x, hx, h⟩ := Res.map_eq_ok.1 h
    cases h
    rw [parse_eq] at hx
    obtain ⟨n, _, hx⟩ := Res.bind_eq_ok.1 hx
    obtain ⟨b, _, hx⟩ := Res.bind_eq_ok.1 hx
    cases hx
    rfl
  | «matches» url ctx dom =>
    simp only [step] at h
    obtain ⟨o, ho, h⟩ := Res.map_eq_ok.1 h
    cases h
    show o.stats.blocked = _
    cases C55_query ho with
    | nothing h1 h2 => rw [h1, h2]; rfl
    | saved h1 _ _ h2 => rw [h1, h2]; rfl
    | falsePositive h1 _ _ h2 => rw [h1, h2]; rfl
    | exceptionSaved h1 _ _ h2 => rw [h1, h2]; simp only [Stats.blocked, blockedCall, ↓reduceIte]; omega
    | exceptionFalsePositive h1 _ _ h2 => rw [h1, h2]; simp only [Stats.blocked, blockedCall, ↓reduceIte]; omega
    | hostException h1 _ h2 => rw [h1, h2]; rfl
  | find url ctx dom =>
    simp only [step] at h
    obtain ⟨o, ho, h⟩ := Res.map_eq_ok.1 h
    cases h
    rfl
  | addTag t => cases h; unfold Client.addTag; split <;> rfl
  | removeTag t => cases h; rfl
  | tagExists t => cases h; rfl
  | clear => exact absurd rfl hop
  | enableBadFingerprintDetection => cases h; unfold Client.enableBadFingerprintDetection; split <;> rfl

theorem sinceClear_none {xs : List (Op × Answer)} (h : ∀ y ∈ xs, y.1 ≠ .clear) : sinceClear xs = xs := by
  cases xs with
  | nil => rfl
  | cons x xs =>
    unfold sinceClear
    rw [if_neg (by rintro ⟨y, hy, e⟩; exact h y (by simp [hy]) e), if_neg (h x (by simp))]

/-- **C55**: after any sequence of operations on a new client, the two counters of searches for
exceptions that found nothing add up to the number of calls of `matches` since the last
`clear` that were answered with "block". -/
theorem C55_blocked_requests {c : Client E} {ops : List Op} {as : List Answer} (h : run (Client.fresh E) ops = .ok (as, c)) :
    c.stats.numExceptionBloomFilterSaves + c.stats.numExceptionFalsePositives =
      (sinceClear (ops.zip as)).countP blockedCall := by
  have nc : ∀ (ops : List Op) (c c' : Client E) (as : List Answer), run c ops = .ok (as, c') → .clear ∉ ops →
      c'.stats.blocked = c.stats.blocked + (ops.zip as).countP blockedCall := by
    intro ops
    induction ops with
    | nil => intro c c' as h _; cases h; rfl
    | cons op ops ih =>
      intro c c' as h hc
      obtain ⟨a, as', c1, rfl, hs, hr⟩ := run_cons_ok h
      simp only [List.mem_cons, not_or] at hc
      rw [ih _ _ _ hr hc.2, step_blocked hs (fun e => hc.1 e.symm), List.zip_cons_cons, List.countP_cons]
      omega
  have mem_ops : ∀ {ops : List Op} {as : List Answer}, ∀ y ∈ ops.zip as, y.1 ∈ ops := fun y hy => (List.of_mem_zip hy).1
  have len : ∀ (ops : List Op) (c c' : Client E) (as : List Answer), run c ops = .ok (as, c') → as.length = ops.length := by
    intro ops
    induction ops with
    | nil => intro c c' as h; cases h; rfl
    | cons op ops ih =>
      intro c c' as h
      obtain ⟨a, as', c1, rfl, hs, hr⟩ := run_cons_ok h
      simp [ih _ _ _ hr]
  have key : ∀ (ops : List Op) (c c' : Client E) (as : List Answer), run c ops = .ok (as, c') →
      c'.stats.blocked = (if .clear ∈ ops then 0 else c.stats.blocked) + (sinceClear (ops.zip as)).countP blockedCall := by
    intro ops
    induction ops with
    | nil => intro c c' as h; cases h; simp [sinceClear]
    | cons op ops ih =>
      intro c c' as h
      obtain ⟨a, as', c1, rfl, hs, hr⟩ := run_cons_ok h
      rw [List.zip_cons_cons]
      by_cases hc : Op.clear ∈ ops
      · have : ∃ y ∈ ops.zip as', y.1 = .clear := by
          obtain ⟨i, hi, e⟩ := List.getElem_of_mem hc
          have hl := len _ _ _ _ hr
          refine ⟨(ops.zip as')[i]'(by rw [List.length_zip]; omega), List.getElem_mem _, ?_⟩
          rw [List.getElem_zip]
          exact e
        rw [ih _ _ _ hr, if_pos hc, if_pos (by simp [hc])]
        conv => rhs; unfold sinceClear
        rw [if_pos this]
      · have hn : ¬ ∃ y ∈ ops.zip as', y.1 = .clear := by
          rintro ⟨y, hy, e⟩
          exact hc (e ▸ mem_ops y hy)
        rw [nc _ _ _ _ hr hc]
        unfold sinceClear
        rw [if_neg hn]
        by_cases ho : op = .clear
        · subst ho
          rw [if_pos (by simp), if_pos rfl]
          cases hs
          rfl
        · have : Op.clear ∉ op :: ops := by
            simp only [List.mem_cons, not_or]
            exact ⟨fun e => ho e.symm, hc⟩
          rw [if_neg this, if_neg ho, step_blocked hs ho, List.countP_cons]
          omega
  have := key ops _ c as h
  rw [show (Client.fresh E).stats.blocked = 0 from rfl] at this
  simpa [Stats.blocked] using this

/-- **C55**: no operation but `clear` lowers a counter, `clear` sets all of them to zero, and of
the operations only `matches` changes one. -/
theorem C55_monotone {c c' : Client E} {op : Op} {a : Answer} (h : step c op = .ok (a, c')) :
    (op = .clear → c'.stats = ⟨0, 0, 0, 0, 0, 0⟩) ∧
    (op ≠ .clear → c.stats.numFalsePositives ≤ c'.stats.numFalsePositives ∧
      c.stats.numExceptionFalsePositives ≤ c'.stats.numExceptionFalsePositives ∧
      c.stats.numBloomFilterSaves ≤ c'.stats.numBloomFilterSaves ∧
      c.stats.numExceptionBloomFilterSaves ≤ c'.stats.numExceptionBloomFilterSaves ∧
      c.stats.numHashSetSaves ≤ c'.stats.numHashSetSaves ∧
      c.stats.numExceptionHashSetSaves ≤ c'.stats.numExceptionHashSetSaves) ∧
    ((∀ url ctx dom, op ≠ .matches url ctx dom) → op ≠ .clear → c'.stats = c.stats) := by
  cases op with
  | parse input pr =>
    simp only [step] at h
    obtain ⟨x, hx, h⟩ := Res.map_eq_ok.1 h
    cases h
    rw [parse_eq] at hx
    obtain ⟨n, _, hx⟩ := Res.bind_eq_ok.1 hx
    obtain ⟨b, _, hx⟩ := Res.bind_eq_ok.1 hx
    cases hx
    have : (c.finish n b).stats = c.stats := rfl
    simp [this]
  | «matches» url ctx dom =>
    simp only [step] at h
    obtain ⟨o, ho, h⟩ := Res.map_eq_ok.1 h
    cases h
    refine ⟨nofun, fun _ => ?_, fun h => absurd rfl (h url ctx dom)⟩
    cases C55_query ho with
    | nothing _ h2 => simp [h2]
    | saved _ _ _ h2 => simp [h2]
    | falsePositive _ _ _ h2 => simp [h2]
    | exceptionSaved _ _ _ h2 => simp [h2]
    | exceptionFalsePositive _ _ _ h2 => simp [h2]
    | hostException _ _ h2 => simp [h2]
  | find url ctx dom =>
    simp only [step] at h
    obtain ⟨o, ho, h⟩ := Res.map_eq_ok.1 h
    cases h
    simp
  | addTag t => cases h; have : (c.addTag t).stats = c.stats := by unfold Client.addTag; split <;> rfl
                simp [this]
  | removeTag t => cases h; have : (c.removeTag t).stats = c.stats := rfl
                   simp [this]
  | tagExists t => cases h; simp
  | clear => cases h; exact ⟨fun _ => rfl, fun h => absurd rfl h, fun _ h => absurd rfl h⟩
  | enableBadFingerprintDetection =>
    cases h
    have : c.enableBadFingerprintDetection.stats = c.stats := by unfold Client.enableBadFingerprintDetection; split <;> rfl
    simp [this]

/-- A run in which detection collects a fingerprint (the rule is about scripts only), then one
for exceptions; the statistics count one blocked request, one false positive each. -/
def collectingRun : List Op :=
  [.enableBadFingerprintDetection, .parse bs%"adbanner$script\ntracker\n@@goodone$script" false,
   .matches bs%"http://a.com/adbanner" FOImage none, .matches bs%"http://a.com/tracker/goodone" FOImage none,
   .matches bs%"http://a.com/adbanner" FOImage none, .matches bs%"http://a.com/" FOImage none]

example : (do
    let x ← run (Client.fresh toyEnv) collectingRun
    pure (x.2.badFps, x.2.stats)) =
    .ok (some (toyEnv.bad ++ [bs%"adbann", bs%"goodon"]), ⟨2, 1, 1, 0, 1, 0⟩) := by decide +kernel

end

end AdBlock
