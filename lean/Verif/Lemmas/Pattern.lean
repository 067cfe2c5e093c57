import Verif.Lemmas.Options
import Verif.Lemmas.Protocol
/-! Helper lemmas on the pattern matching algorithm. -/
namespace AdBlock
open Spec

theorem partAt_length {p u : Bytes} (h : PartAt p u) : p.length ≤ u.length + 1 := by
  induction p generalizing u with
  | nil => simp
  | cons c p ih =>
    cases u with
    | nil => simp [PartAt] at h; simp [h.2]
    | cons d u => simp only [PartAt] at h; have := ih h.2; simp; omega

/-- Exact behaviour of the inner loop of `indexOfFilter`. -/
theorem matchAt_spec (p u : Bytes) (hu : 0 ∉ u) (hp : 0 ∉ p) :
    match matchAt (cstr u) p with
    | .ok r => (r = .full ↔ PartAt p u) ∧ (r = .abort → u.length < p.length)
    | .ub _ => ∃ a b, p = a ++ ch%'^' :: b ∧ b ≠ [] ∧ a.length = u.length ∧ PartAt a u := by
  induction p generalizing u with
  | nil => simp [matchAt, PartAt]
  | cons fc fs ih =>
    have hfc : fc ≠ 0 := fun e => hp (by simp [e])
    have hfs := not_mem_tail hp
    cases u with
    | nil =>
      simp only [matchAt, cstr, List.nil_append, rd_cons_zero, Res.bind_ok, bne_iff_ne, ne_eq, hfc,
        not_false_eq_true, ↓reduceIte, isSeparatorChar_zero, Bool.false_or, beq_self_eq_true,
        Bool.and_true, beq_iff_eq]
      by_cases h : fc = ch%'^'
      · simp only [h, ↓reduceIte, List.drop_succ_cons, List.drop_zero]
        cases fs with
        | nil => simp [matchAt, PartAt]
        | cons g gs =>
          simp only [matchAt, rd_nil, Res.bind_ub]
          exact ⟨[], g :: gs, by simp, by simp, rfl, trivial⟩
      · simp [h, PartAt]
    | cons c u =>
      have hc : c ≠ 0 := fun e => hu (by simp [e])
      have hu' := not_mem_tail hu
      have ih' := ih u hu' hfs
      -- continuing after a matching character
      have cont : (fc = c ∨ (fc = ch%'^' ∧ IsSep c)) →
          matchAt (cstr (c :: u)) (fc :: fs) = matchAt (cstr u) fs →
          (match matchAt (cstr (c :: u)) (fc :: fs) with
          | .ok r => (r = .full ↔ PartAt (fc :: fs) (c :: u)) ∧ (r = .abort → (c :: u).length < (fc :: fs).length)
          | .ub _ => ∃ a b, fc :: fs = a ++ ch%'^' :: b ∧ b ≠ [] ∧ a.length = (c :: u).length ∧ PartAt a (c :: u)) := by
        intro hm he
        rw [he]
        cases hr : matchAt (cstr u) fs with
        | ok r =>
          rw [hr] at ih'
          simp only [PartAt, hm, true_and, List.length_cons]
          exact ⟨ih'.1, fun h => by have := ih'.2 h; omega⟩
        | ub e =>
          rw [hr] at ih'
          obtain ⟨a, b, h1, h2, h3, h4⟩ := ih'
          exact ⟨fc :: a, b, by simp [h1], h2, by simp [h3], by simp only [PartAt]; exact ⟨hm, h4⟩⟩
      by_cases h : fc = c
      · exact cont (.inl h) (by simp [matchAt, cstr_cons, h])
      · by_cases h' : fc = ch%'^' ∧ IsSep c
        · refine cont (.inr h') ?_
          have hs := (isSeparatorChar_iff c).2 h'.2
          have : ¬ ch%'^' = c := by rw [← h'.1]; exact h
          simp [matchAt, cstr_cons, h'.1, hs, this]
        · have h2 : ¬ (fc = ch%'^' ∧ isSeparatorChar c = true) := by rw [isSeparatorChar_iff]; exact h'
          have he : matchAt (cstr (c :: u)) (fc :: fs) = .ok .mismatch := by
            simp [matchAt, cstr_cons, h, hc, h2]
          rw [he]
          simp [PartAt, h, h']

/-- Exact behaviour of the outer loop of `indexOfFilter`. -/
theorem indexLoop_spec (p u : Bytes) (hu : 0 ∉ u) (hp : 0 ∉ p) :
    match indexLoop p u.length (cstr u) with
    | .ok (some k) => k < u.length ∧ PartAt p (u.drop k) ∧ ∀ j, j < k → ¬ PartAt p (u.drop j)
    | .ok none => ∀ k, k < u.length → ¬ PartAt p (u.drop k)
    | .ub _ => ∃ a b v, p = a ++ ch%'^' :: b ∧ a ≠ [] ∧ b ≠ [] ∧ v <:+ u ∧ a.length = v.length ∧ PartAt a v := by
  induction u with
  | nil => simp [indexLoop]
  | cons c u ih =>
    have hm := matchAt_spec p (c :: u) hu hp
    have ih' := ih (not_mem_tail hu)
    simp only [List.length_cons, indexLoop]
    cases hr : matchAt (cstr (c :: u)) p with
    | ub e =>
      rw [hr] at hm
      obtain ⟨a, b, h1, h2, h3, h4⟩ := hm
      exact ⟨a, b, c :: u, h1, by rintro rfl; simp at h3, h2, List.suffix_refl _, h3, h4⟩
    | ok r =>
      rw [hr] at hm
      cases r with
      | full =>
        simp only [Res.bind_ok, Res.pure_eq]
        exact ⟨by omega, hm.1.1 rfl, by simp⟩
      | abort =>
        simp only [Res.bind_ok, Res.pure_eq]
        have h0 : ¬ PartAt p (c :: u) := by rw [← hm.1]; simp
        have hl := hm.2 rfl
        intro k hk h
        cases k with
        | zero => exact h0 h
        | succ k =>
          have := partAt_length h
          simp at this hl hk
          omega
      | mismatch =>
        simp only [Res.bind_ok]
        have h0 : ¬ PartAt p (c :: u) := by rw [← hm.1]; simp
        rw [cstr_cons, List.drop_succ_cons, List.drop_zero]
        cases hl : indexLoop p u.length (cstr u) with
        | ub e =>
          rw [hl] at ih'
          obtain ⟨a, b, v, h1, h1', h2, h3, h4⟩ := ih'
          exact ⟨a, b, v, h1, h1', h2, h3.trans (List.suffix_cons c u), h4⟩
        | ok o =>
          rw [hl] at ih'
          cases o with
          | none =>
            simp only [Res.map_ok, Option.map_none]
            intro k hk
            cases k with
            | zero => exact h0
            | succ k => exact ih' k (by omega)
          | some k =>
            simp only [Res.map_ok, Option.map_some]
            refine ⟨by omega, ih'.2.1, ?_⟩
            intro j hj
            cases j with
            | zero => exact h0
            | succ j => exact ih'.2.2 j (by omega)

/-- Exact behaviour of `indexOfFilter`. -/
theorem indexOfFilter_spec (p u : Bytes) (hu : 0 ∉ u) (hp : 0 ∉ p) :
    match indexOfFilter (cstr u) u.length p with
    | .ok (some k) => p ≠ bs%"^" ∧ p.length ≤ u.length ∧ k < u.length ∧ PartAt p (u.drop k) ∧
        ∀ j, j < k → ¬ PartAt p (u.drop j)
    | .ok none => ¬ (p ≠ bs%"^" ∧ p.length ≤ u.length ∧ ∃ k, k < u.length ∧ PartAt p (u.drop k))
    | .ub _ => ∃ a b v, p = a ++ ch%'^' :: b ∧ a ≠ [] ∧ b ≠ [] ∧ v <:+ u ∧ a.length = v.length ∧ PartAt a v := by
  unfold indexOfFilter
  by_cases h1 : p = bs%"^"
  · simp [h1]
  · by_cases h2 : (p.length : Int) > (u.length : Int)
    · simp only [h1, ↓reduceIte, h2]
      intro h; omega
    · have hl := indexLoop_spec p u hu hp
      simp only [h1, ↓reduceIte, h2, Int.toNat_natCast]
      cases hr : indexLoop p u.length (cstr u) with
      | ub e => rw [hr] at hl; exact hl
      | ok o =>
        rw [hr] at hl
        cases o with
        | none =>
          rintro ⟨_, _, k, hk, hp⟩
          exact hl k hk hp
        | some k => exact ⟨h1, by omega, hl⟩

theorem caretSafe_contra {p u : Bytes} (h : CaretSafe p u)
    (hn : ∃ a b v, p = a ++ ch%'^' :: b ∧ a ≠ [] ∧ b ≠ [] ∧ v <:+ u ∧ a.length = v.length ∧ PartAt a v) : False := by
  obtain ⟨a, b, v, h1, h1', h2, h3, h4, h5⟩ := hn
  exact h a b h1 h1' h2 v h3 h4.symm h5

theorem caretSafe_suffix {p u v : Bytes} (h : CaretSafe p u) (hv : v <:+ u) : CaretSafe p v :=
  fun a b h1 h1' h2 w hw => h a b h1 h1' h2 w (hw.trans hv)

theorem CaretEdge.safe {p : Bytes} (h : CaretEdge p) (u : Bytes) : CaretSafe p u :=
  fun a b h1 h2 h3 => absurd (h a b h1) (by simp [h2, h3])

/-- The greedy choice is harmless. -/
theorem placedParts_mono {ps : List Bytes} {u : Bytes} {i j : Nat} (hij : j ≤ i)
    (h : PlacedParts ps (u.drop i)) : PlacedParts ps (u.drop j) := by
  cases ps with
  | nil => trivial
  | cons p ps =>
    rcases h with h | ⟨h1, h2, k, h3, h4, h5⟩
    · exact .inl h
    · refine .inr ⟨h1, ?_, k + (i - j), ?_, ?_, ?_⟩
      · simp at h2 ⊢; omega
      · simp at h3 ⊢; omega
      · rw [List.drop_drop] at h4 ⊢
        have : j + (k + (i - j)) = i + k := by omega
        rw [this]; exact h4
      · rw [List.drop_drop] at h5 ⊢
        have : j + (k + (i - j) + p.length) = i + (k + p.length) := by omega
        rw [this]; exact h5

/-- `getNextPos` finds the end of the first part. -/
theorem getNextPos_split {d : Bytes} (hd : 0 ∉ d) (tail : Ptr) {p : Bytes} {ps : List Bytes}
    (h : splitOn ch%'*' d = p :: ps) : getNextPos ch%'*' (d ++ tail) d.length = .ok p.length := by
  induction d generalizing p ps with
  | nil => simp [splitOn] at h; simp [getNextPos, h]
  | cons c d ih =>
    have hc : c ≠ 0 := fun e => hd (by simp [e])
    by_cases hs : c = ch%'*'
    · subst hs
      rw [splitOn_cons_sep] at h
      simp only [List.cons.injEq] at h
      simp [getNextPos, ← h.1]
    · obtain ⟨q, qs, hq⟩ := List.exists_cons_of_ne_nil (splitOn_ne_nil ch%'*' d)
      rw [splitOn_cons_of_ne hs hq] at h
      simp only [List.cons.injEq] at h
      have := ih (not_mem_tail hd) hq
      simp [getNextPos, hc, hs, this, ← h.1]

/-- A string is its first part, alone or followed by the separator and the others. -/
theorem splitOn_decomp {sep : Byte} {d p : Bytes} {ps : List Bytes} (h : splitOn sep d = p :: ps) :
    sep ∉ p ∧ ((ps = [] ∧ d = p) ∨ ∃ d', d = p ++ sep :: d' ∧ splitOn sep d' = ps ∧ ps ≠ []) := by
  induction d generalizing p ps with
  | nil => simp [splitOn] at h; simp [h]
  | cons c d ih =>
    by_cases hs : c = sep
    · subst hs
      rw [splitOn_cons_sep] at h
      simp only [List.cons.injEq] at h
      refine ⟨by simp [← h.1], .inr ⟨d, by simp [← h.1], h.2, ?_⟩⟩
      rw [← h.2]; exact splitOn_ne_nil _ _
    · obtain ⟨q, qs, hq⟩ := List.exists_cons_of_ne_nil (splitOn_ne_nil sep d)
      rw [splitOn_cons_of_ne hs hq] at h
      simp only [List.cons.injEq] at h
      obtain ⟨h1, h2⟩ := h
      subst h1 h2
      obtain ⟨a1, a2⟩ := ih hq
      refine ⟨by simp [a1]; exact fun e => hs e.symm, ?_⟩
      rcases a2 with ⟨rfl, rfl⟩ | ⟨d', rfl, a3, a4⟩
      · exact .inl ⟨rfl, rfl⟩
      · exact .inr ⟨d', rfl, a3, a4⟩

/-- what follows the pattern in memory: the terminator, unless the pattern does not need one -/
def TailOk (d : Bytes) (tail : Ptr) : Prop :=
  (∃ r, tail = 0 :: r) ∨ (d ≠ [] ∧ d.getLast? ≠ some ch%'*')

theorem TailOk.rest {p d' : Bytes} {tail : Ptr} (h : TailOk (p ++ ch%'*' :: d') tail) : TailOk d' tail := by
  rcases h with h | ⟨_, h⟩
  · exact .inl h
  · right
    cases d' with
    | nil => simp at h
    | cons c d' =>
      refine ⟨by simp, ?_⟩
      simpa [List.getLast?_append, List.getLast?_cons] using h

/-- one turn of the loop -/
theorem wildLoop_step (bloom : Option (Bytes → Bool)) (input : Ptr) (inputLen fuel : Nat) (d : Ptr)
    (rem partLen index : Nat) (he : partLen ≠ 0 ∨ rd d 0 = .ok ch%'*') :
    wildLoop bloom input inputLen (fuel + 1) d rem partLen index =
      if !partPasses bloom (d.take partLen) then .ok false
      else (indexOfFilter (input.drop index) ((inputLen : Int) - index) (d.take partLen)) >>= fun
      | none => .ok false
      | some k =>
        if partLen = rem then .ok true
        else (rd d partLen) >>= fun e =>
          if e = 0 then .ok true
          else (getNextPos ch%'*' (d.drop (partLen + 1)) (rem - (partLen + 1))) >>= fun np =>
            (rd input (index + k)) >>= fun c =>
            if c = 0 then .ok true
            else
              wildLoop bloom input inputLen fuel (d.drop (partLen + 1)) (rem - (partLen + 1))
                np (index + k + partLen) := by
  conv => lhs; unfold wildLoop
  by_cases h : partLen ≠ 0
  · rw [if_pos h]; rfl
  · rw [if_neg h]
    rw [he.resolve_left h]
    rfl

/-- the result of one step of `wildLoop`, as used below -/
def StepOut (r : Res Bool) (P : Prop) (U : Prop) : Prop :=
  match r with
  | .ok b => b = true ↔ P
  | .ub _ => U

theorem wildLoop_spec (url : Bytes) (hu : 0 ∉ url) (tail : Ptr) :
    ∀ (fuel : Nat) (d : Bytes) (p : Bytes) (ps : List Bytes) (index : Nat),
      d.length < fuel → 0 ∉ d → splitOn ch%'*' d = p :: ps → TailOk d tail →
      index ≤ url.length + 1 →
      StepOut (wildLoop none (cstr url) url.length fuel (d ++ tail) d.length p.length index)
        (PlacedParts (p :: ps) (url.drop index))
        (∃ q ∈ p :: ps, ¬ CaretSafe q url) := by
  intro fuel
  induction fuel with
  | zero => intro d p ps index h; omega
  | succ fuel ih =>
    intro d p ps index hf hd hsp htail hi
    obtain ⟨hsep, hdec⟩ := splitOn_decomp hsp
    have hp0 : 0 ∉ p := by
      rcases hdec with ⟨_, rfl⟩ | ⟨d', rfl, _⟩
      · exact hd
      · intro h; exact hd (by simp [h])
    have htake : (d ++ tail).take p.length = p := by
      rcases hdec with ⟨_, rfl⟩ | ⟨d', rfl, _⟩
      · simp
      · simp
    -- the loop condition
    by_cases hend : p = [] ∧ ps = []
    · obtain ⟨rfl, rfl⟩ := hend
      have hdn : d = [] := by
        rcases hdec with ⟨_, rfl⟩ | ⟨d', _, _, h⟩
        · rfl
        · simp at h
      subst hdn
      rcases htail with ⟨r, rfl⟩ | ⟨h, _⟩
      · simp [wildLoop, StepOut, PlacedParts]
      · simp at h
    · have henter : p.length ≠ 0 ∨ rd (d ++ tail) 0 = .ok ch%'*' := by
        by_cases hpl : p = []
        · subst hpl
          rcases hdec with ⟨rfl, rfl⟩ | ⟨d', rfl, _⟩
          · simp at hend
          · simp
        · exact .inl (by simpa using hpl)
      rw [wildLoop_step _ _ _ _ _ _ _ _ henter]
      simp only [partPasses, Bool.not_true, Bool.false_eq_true, ↓reduceIte, htake]
      by_cases hi' : index = url.length + 1
      · -- past the terminator: nothing matches
        have hneg : ((url.length : Int) - (index : Int)) = -1 := by omega
        have hd0 : url.drop index = [] := List.drop_eq_nil_of_le (by omega)
        have hidx : indexOfFilter ((cstr url).drop index) ((url.length : Int) - (index : Int)) p = .ok none := by
          unfold indexOfFilter
          rw [hneg]
          split
          · rfl
          · have : (p.length : Int) > -1 := by omega
            simp [this]
        rw [hidx]
        simp only [Res.bind_ok, Res.pure_eq, StepOut, Bool.false_eq_true, false_iff, hd0]
        rintro (h | ⟨_, _, k, hk, _⟩)
        · exact hend h
        · simp at hk
      · have hi2 : index ≤ url.length := by omega
        have hlen : ((url.length : Int) - (index : Int)) = ((url.drop index).length : Int) := by
          simp; omega
        have hudrop : 0 ∉ url.drop index := fun h => hu (List.mem_of_mem_drop h)
        rw [cstr_drop hi2, hlen]
        have spec := indexOfFilter_spec p (url.drop index) hudrop hp0
        cases hr : indexOfFilter (cstr (url.drop index)) ((url.drop index).length : Int) p with
        | ub e =>
          rw [hr] at spec
          simp only [Res.bind_ub, StepOut]
          refine ⟨p, by simp, fun hs => ?_⟩
          exact caretSafe_contra (caretSafe_suffix hs (List.drop_suffix _ _)) spec
        | ok o =>
          rw [hr] at spec
          cases o with
          | none =>
            simp only [Res.bind_ok, Res.pure_eq, StepOut, Bool.false_eq_true, false_iff]
            rintro (h | ⟨h1, h2, k, h3, h4, _⟩)
            · exact hend h
            · exact spec ⟨h1, h2, k, h3, h4⟩
          | some k =>
            obtain ⟨s1, s2, s3, s4, s5⟩ := spec
            simp only [Res.bind_ok]
            rcases hdec with ⟨rfl, rfl⟩ | ⟨d', rfl, hsp', hne⟩
            · simp only [↓reduceIte, Res.pure_eq, StepOut, true_iff]
              exact .inr ⟨s1, s2, k, s3, s4, trivial⟩
            · have hl : ¬ p.length = (p ++ ch%'*' :: d').length := by simp
              have hrd : rd (p ++ ch%'*' :: d' ++ tail) p.length = .ok ch%'*' := by
                rw [List.append_assoc]; exact rd_append_length
              have hz : ¬ (ch%'*' : Byte) = 0 := by decide
              have hdrop : (p ++ ch%'*' :: d' ++ tail).drop (p.length + 1) = d' ++ tail := by
                rw [List.append_assoc, List.cons_append, List.drop_append, List.drop_eq_nil_of_le (by omega)]; simp
              have hsub : (p ++ ch%'*' :: d').length - (p.length + 1) = d'.length := by simp; omega
              have hd' : 0 ∉ d' := fun h => hd (by simp [h])
              obtain ⟨q, qs, hq⟩ := List.exists_cons_of_ne_nil hne
              rw [hq] at hsp'
              have hnp := getNextPos_split hd' tail hsp'
              have hik : index + k < url.length := by simp at s3; omega
              have hrdi : rd (cstr url) (index + k) = .ok (url[index + k]) := by
                unfold cstr; exact rd_append_left hik
              have hnz : ¬ url[index + k] = 0 := by
                intro h; exact hu (by rw [← h]; exact List.getElem_mem hik)
              simp only [hl, ↓reduceIte, hrd, Res.bind_ok, hz, hdrop, hsub, hnp, hrdi, hnz]
              have hbound : index + k + p.length ≤ url.length + 1 := by
                have := partAt_length s4
                simp at this s3; omega
              have := ih d' q qs (index + k + p.length) (by simp at hf; omega) hd' hsp'
                htail.rest hbound
              cases hw : wildLoop none (cstr url) url.length fuel (d' ++ tail) d'.length q.length
                  (index + k + p.length) with
              | ub e =>
                rw [hw] at this
                simp only [StepOut] at this ⊢
                obtain ⟨x, hx, hxs⟩ := this
                exact ⟨x, by rw [hq]; exact List.mem_cons_of_mem _ hx, hxs⟩
              | ok b =>
                rw [hw] at this
                simp only [StepOut] at this ⊢
                rw [this, hq]
                constructor
                · intro h
                  refine .inr ⟨s1, s2, k, s3, s4, ?_⟩
                  rw [List.drop_drop]
                  have e : index + (k + p.length) = index + k + p.length := by omega
                  rw [e]; exact h
                · rintro (h | ⟨_, _, k', h3, h4, h5⟩)
                  · simp at h
                  · have hkk : k ≤ k' := by
                      apply Decidable.byContradiction
                      intro hlt
                      exact s5 k' (by omega) h4
                    rw [List.drop_drop] at h5
                    exact placedParts_mono (by omega) h5

/-- The wildcard comparison computes `Placed`, or else some part is not caret safe. -/
theorem wildMatch_spec (url d : Bytes) (tail : Ptr) (hu : 0 ∉ url) (hd : 0 ∉ d) (ht : TailOk d tail) :
    match wildMatch none (cstr url) url.length (d ++ tail) d.length with
    | .ok b => b = true ↔ Placed d url
    | .ub _ => ∃ q ∈ splitOn ch%'*' d, ¬ CaretSafe q url := by
  obtain ⟨p, ps, hsp⟩ := List.exists_cons_of_ne_nil (splitOn_ne_nil ch%'*' d)
  have h := wildLoop_spec url hu tail (d.length + 1) d p ps 0 (by omega) hd hsp ht (by omega)
  unfold wildMatch
  rw [getNextPos_split hd tail hsp]
  simp only [Res.bind_ok]
  unfold Placed
  rw [hsp]
  simpa [StepOut] using h

theorem wildMatch_safe (url d : Bytes) (tail : Ptr) (hu : 0 ∉ url) (hd : 0 ∉ d) (ht : TailOk d tail)
    (hs : ∀ q ∈ splitOn ch%'*' d, CaretSafe q url) :
    ∃ b, wildMatch none (cstr url) url.length (d ++ tail) d.length = .ok b ∧ (b = true ↔ Placed d url) := by
  have h := wildMatch_spec url d tail hu hd ht
  cases hw : wildMatch none (cstr url) url.length (d ++ tail) d.length with
  | ok b => rw [hw] at h; exact ⟨b, rfl, h⟩
  | ub e =>
    rw [hw] at h
    obtain ⟨q, hq, hn⟩ := h
    exact absurd (hs q hq) hn

/-! #### the byte pair filter -/

/-- a pair of characters that are not separators stands for itself in any match -/
theorem pair_of_partAt {p u x y : Bytes} {a b : Byte} (h : PartAt p u) (hp : p = x ++ a :: b :: y)
    (ha : ¬ IsSep a) (hb : ¬ IsSep b) : [a, b] <:+: u := by
  have hca : a ≠ ch%'^' := by rintro rfl; exact ha (by decide)
  have hcb : b ≠ ch%'^' := by rintro rfl; exact hb (by decide)
  induction x generalizing p u with
  | nil =>
    subst hp
    cases u with
    | nil => simp [PartAt, hca] at h
    | cons c u =>
      simp only [List.nil_append, PartAt, hca, false_and, or_false] at h
      cases u with
      | nil => simp [PartAt, hcb] at h
      | cons d u =>
        simp only [PartAt, hcb, false_and, or_false] at h
        rw [h.1, h.2.1]
        exact ⟨[], u, by simp⟩
  | cons z x ih =>
    subst hp
    cases u with
    | nil => simp [PartAt] at h
    | cons c u =>
      simp only [List.cons_append, PartAt] at h
      have := ih h.2 rfl
      exact this.trans (List.suffix_cons c u).isInfix

theorem partBloomOk_false {ex : Bytes → Bool} {p : Bytes} (h : partBloomOk ex p = false) :
    ∃ x a b y, p = x ++ a :: b :: y ∧ ¬ IsSep a ∧ ¬ IsSep b ∧ ex [a, b] = false := by
  fun_induction partBloomOk ex p with
  | case1 a b c rest ih =>
    simp only [Bool.and_eq_false_iff, Bool.or_eq_false_iff] at h
    rcases h with ⟨⟨h1, h2⟩, h3⟩ | h
    · refine ⟨[], a, b, c :: rest, by simp, ?_, ?_, h3⟩
      · rw [← isSeparatorChar_iff]; simp [h1]
      · rw [← isSeparatorChar_iff]; simp [h2]
    · obtain ⟨x, a', b', y, e, h'⟩ := ih h
      exact ⟨a :: x, a', b', y, by simp [e], h'⟩
  | case2 => simp at h

theorem hostBloomOk_false {ex : Bytes → Bool} {p : Bytes} (h : hostBloomOk ex p = false) :
    ∃ a b, [a, b] <:+: p ∧ ex [a, b] = false := by
  fun_induction hostBloomOk ex p with
  | case1 a b rest ih =>
    simp only [Bool.and_eq_false_iff] at h
    rcases h with h | h
    · exact ⟨a, b, ⟨[], rest, by simp⟩, h⟩
    · obtain ⟨a', b', h1, h2⟩ := ih h
      exact ⟨a', b', h1.trans (List.suffix_cons a _).isInfix, h2⟩
  | case2 => simp at h

theorem getUrlHost_infix (url : Bytes) : getUrlHost url <:+: url := by
  have h1 : ∀ s : Bytes, hostStart s <:+ s := by
    intro s
    induction s with
    | nil => exact List.suffix_refl _
    | cons c s ih =>
      simp only [hostStart]
      split
      · exact (List.dropWhile_suffix _).trans (List.suffix_cons c s)
      · exact ih.trans (List.suffix_cons c s)
  exact (List.take_prefix _ _).isInfix.trans (h1 url).isInfix

theorem indexOfFilter_none {p u : Bytes} (hu : 0 ∉ u) (hp : 0 ∉ p) {o : Option Nat}
    (h : indexOfFilter (cstr u) u.length p = .ok o) (hn : ∀ k, k < u.length → ¬ PartAt p (u.drop k)) :
    o = none := by
  have spec := indexOfFilter_spec p u hu hp
  rw [h] at spec
  cases o with
  | none => rfl
  | some k => exact absurd spec.2.2.2.1 (hn k spec.2.2.1)

/-- Adding a byte pair filter without false negatives does not change the outcome of the
wildcard comparison. -/
theorem wildLoop_bloom {url : Bytes} (hu : 0 ∉ url) {ex : Bytes → Bool}
    (hex : ∀ a b, [a, b] <:+: url → ex [a, b] = true) (tail : Ptr) :
    ∀ (fuel : Nat) (d : Bytes) (p : Bytes) (ps : List Bytes) (index : Nat) (b : Bool),
      0 ∉ d → splitOn ch%'*' d = p :: ps → index ≤ url.length + 1 →
      wildLoop none (cstr url) url.length fuel (d ++ tail) d.length p.length index = .ok b →
      wildLoop (some ex) (cstr url) url.length fuel (d ++ tail) d.length p.length index = .ok b := by
  intro fuel
  induction fuel with
  | zero => intro d p ps index b _ _ _ h; simp [wildLoop] at h
  | succ fuel ih =>
    intro d p ps index b hd hsp hi h
    obtain ⟨hsep, hdec⟩ := splitOn_decomp hsp
    have hp0 : 0 ∉ p := by
      rcases hdec with ⟨_, rfl⟩ | ⟨d', rfl, _⟩
      · exact hd
      · intro h; exact hd (by simp [h])
    have htake : (d ++ tail).take p.length = p := by
      rcases hdec with ⟨_, rfl⟩ | ⟨d', rfl, _⟩ <;> simp
    by_cases he : p.length ≠ 0 ∨ rd (d ++ tail) 0 = .ok ch%'*'
    · rw [wildLoop_step _ _ _ _ _ _ _ _ he] at h ⊢
      simp only [partPasses, Bool.not_true, Bool.false_eq_true, ↓reduceIte, htake] at h ⊢
      -- the search in the version without bloom filter
      obtain ⟨o, ho, hrest⟩ := Res.bind_eq_ok.1 h
      by_cases hpass : partBloomOk ex p = true
      · simp only [hpass, Bool.not_true, Bool.false_eq_true, ↓reduceIte]
        rw [ho] at h ⊢
        cases o with
        | none => exact h
        | some k =>
          simp only [Res.bind_ok] at h ⊢
          rcases hdec with ⟨rfl, rfl⟩ | ⟨d', rfl, hsp', hne⟩
          · simpa using h
          · have hl : ¬ p.length = (p ++ ch%'*' :: d').length := by simp
            have hrd : rd (p ++ ch%'*' :: d' ++ tail) p.length = .ok ch%'*' := by
              rw [List.append_assoc]; exact rd_append_length
            have hz : ¬ (ch%'*' : Byte) = 0 := by decide
            have hdrop : (p ++ ch%'*' :: d' ++ tail).drop (p.length + 1) = d' ++ tail := by
              rw [List.append_assoc, List.cons_append, List.drop_append, List.drop_eq_nil_of_le (by omega)]; simp
            have hsub : (p ++ ch%'*' :: d').length - (p.length + 1) = d'.length := by simp; omega
            have hd' : 0 ∉ d' := fun h => hd (by simp [h])
            obtain ⟨q, qs, hq⟩ := List.exists_cons_of_ne_nil hne
            rw [hq] at hsp'
            have hnp := getNextPos_split hd' tail hsp'
            have hi2 : index ≤ url.length := by
              by_cases hi' : index = url.length + 1
              · have hneg : ((url.length : Int) - (index : Int)) = -1 := by omega
                have hidx : indexOfFilter ((cstr url).drop index) ((url.length : Int) - (index : Int)) p = .ok none := by
                  unfold indexOfFilter
                  rw [hneg]
                  split
                  · rfl
                  · have : (p.length : Int) > -1 := by omega
                    simp [this]
                rw [hidx] at ho; simp at ho
              · omega
            have hlen : ((url.length : Int) - (index : Int)) = ((url.drop index).length : Int) := by
              simp; omega
            have hudrop : 0 ∉ url.drop index := fun h => hu (List.mem_of_mem_drop h)
            rw [cstr_drop hi2, hlen] at ho
            have spec := indexOfFilter_spec p (url.drop index) hudrop hp0
            rw [ho] at spec
            obtain ⟨s1, s2, s3, s4, s5⟩ := spec
            have hbound : index + k + p.length ≤ url.length + 1 := by
              have := partAt_length s4
              simp at this s3; omega
            simp only [hl, ↓reduceIte, hrd, Res.bind_ok, hz, hdrop, hsub, hnp] at h ⊢
            obtain ⟨c, hc, h2⟩ := Res.bind_eq_ok.1 h
            rw [hc, Res.bind_ok]
            by_cases hc0 : c = 0
            · simpa [hc0] using h2
            · simp only [hc0, ↓reduceIte] at h2 ⊢
              exact ih d' q qs _ b hd' hsp' hbound h2
      · have hpass : partBloomOk ex p = false := by simpa using hpass
        simp only [hpass, Bool.not_false, ↓reduceIte]
        obtain ⟨x, a, c, y, hpe, ha, hc, hx⟩ := partBloomOk_false hpass
        have hnone : o = none := by
          by_cases hi' : index = url.length + 1
          · have hneg : ((url.length : Int) - (index : Int)) = -1 := by omega
            have hidx : indexOfFilter ((cstr url).drop index) ((url.length : Int) - (index : Int)) p = .ok none := by
              unfold indexOfFilter
              rw [hneg]
              split
              · rfl
              · have : (p.length : Int) > -1 := by omega
                simp [this]
            rw [hidx] at ho
            exact (Res.ok.inj ho).symm
          · have hi2 : index ≤ url.length := by omega
            have hlen : ((url.length : Int) - (index : Int)) = ((url.drop index).length : Int) := by
              simp; omega
            have hudrop : 0 ∉ url.drop index := fun h => hu (List.mem_of_mem_drop h)
            rw [cstr_drop hi2, hlen] at ho
            refine indexOfFilter_none hudrop hp0 ho ?_
            intro k _ hpa
            have := pair_of_partAt hpa hpe ha hc
            rw [List.drop_drop] at this
            have := hex a c (this.trans (List.drop_suffix _ _).isInfix)
            rw [hx] at this; simp at this
        subst hnone
        simpa using hrest
    · -- the loop ends
      have hp : p.length = 0 := by
        apply Decidable.byContradiction; intro h; exact he (.inl h)
      have hr : rd (d ++ tail) 0 ≠ .ok ch%'*' := fun h => he (.inr h)
      unfold wildLoop at h ⊢
      simp only [hp, ne_eq, not_true_eq_false, ↓reduceIte] at h ⊢
      cases hrd : rd (d ++ tail) 0 with
      | ub e => rw [hrd] at h; simp at h
      | ok c =>
        have hc : ¬ c = ch%'*' := fun e => hr (by rw [hrd, e])
        rw [hrd] at h
        simpa [hc] using h

theorem wildMatch_bloom {url : Bytes} (hu : 0 ∉ url) {ex : Bytes → Bool}
    (hex : ∀ a b, [a, b] <:+: url → ex [a, b] = true) {d : Bytes} (hd : 0 ∉ d) (tail : Ptr) {b : Bool}
    (h : wildMatch none (cstr url) url.length (d ++ tail) d.length = .ok b) :
    wildMatch (some ex) (cstr url) url.length (d ++ tail) d.length = .ok b := by
  obtain ⟨p, ps, hsp⟩ := List.exists_cons_of_ne_nil (splitOn_ne_nil ch%'*' d)
  unfold wildMatch at h ⊢
  rw [getNextPos_split hd tail hsp] at h ⊢
  exact wildLoop_bloom hu hex tail _ d p ps 0 b hd hsp (by omega) h

end AdBlock
