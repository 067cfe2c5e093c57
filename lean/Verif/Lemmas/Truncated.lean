import Verif.Lemmas.Reread
import Verif.Lemmas.Match
/-! Helper lemmas: reading data that are cut off.  What reading succeeds in does not change when
bytes are added behind; so if complete data are used up to the last byte, incomplete data cannot be
read with success. -/
namespace AdBlock
open Spec

theorem cstrAt_ok {p : Ptr} {s : Bytes} (h : cstrAt p = .ok s) : ∃ t, p = s ++ 0 :: t ∧ 0 ∉ s := by
  induction p generalizing s with
  | nil => simp [cstrAt] at h
  | cons c p ih =>
    unfold cstrAt at h
    by_cases hc : c = 0
    · subst hc
      rw [if_pos rfl] at h
      cases h
      exact ⟨p, by simp, by simp⟩
    · rw [if_neg hc] at h
      obtain ⟨s', hs, rfl⟩ := Res.map_eq_ok.1 h
      obtain ⟨t, rfl, h0⟩ := ih hs
      exact ⟨t, by simp, by simp [h0, Ne.symm hc]⟩

theorem cstrAt_append {p : Ptr} {s : Bytes} (h : cstrAt p = .ok s) (q : Ptr) : cstrAt (p ++ q) = .ok s := by
  obtain ⟨t, rfl, h0⟩ := cstrAt_ok h
  simpa using cstrAt_cstr h0 (t ++ q)

theorem takeString_append {p r : Ptr} {o : Option Bytes} (h : takeString p = .ok (o, r)) (q : Ptr) :
    takeString (p ++ q) = .ok (o, r ++ q) := by
  unfold takeString at h ⊢
  obtain ⟨s, hs, h⟩ := Res.bind_eq_ok.1 h
  cases h
  rw [cstrAt_append hs q]
  obtain ⟨t, rfl, h0⟩ := cstrAt_ok hs
  simp only [Res.bind_ok, Res.pure_eq]
  rw [List.append_assoc, List.cons_append, drop_string, drop_string]

theorem drop_append_le {p q : Ptr} {n : Nat} (h : n ≤ p.length) : (p ++ q).drop n = p.drop n ++ q :=
  List.drop_append_of_le_length h

theorem takeTag_append {p r : Ptr} {tag : Bytes} (h : takeTag p = .ok (tag, r)) (q : Ptr) :
    takeTag (p ++ q) = .ok (tag, r ++ q) := by
  unfold takeTag at h ⊢
  obtain ⟨a, ha, h⟩ := Res.bind_eq_ok.1 h
  rw [rd_mono ha q, Res.bind_ok]
  by_cases h1 : a = ch%'~'
  · rw [if_pos h1] at h ⊢
    obtain ⟨b, hb, h⟩ := Res.bind_eq_ok.1 h
    rw [rd_mono hb q, Res.bind_ok]
    have hl := rd_length hb
    by_cases h2 : b = ch%'#'
    · rw [if_pos h2] at h ⊢
      obtain ⟨s, hs, h⟩ := Res.bind_eq_ok.1 h
      have e := cstrAt_append hs q
      rw [← drop_append_le (by omega)] at e
      rw [e, Res.bind_ok]
      simp only [Res.pure_eq] at h ⊢
      obtain ⟨t, hp, h0⟩ := cstrAt_ok hs
      by_cases hc : ch%',' ∈ s
      · rw [if_pos hc] at h ⊢
        cases h
        rw [drop_append_le]
        have h3 : (s.takeWhile (· != ch%',')).length ≤ s.length := (List.takeWhile_prefix _).length_le
        have h4 := congrArg List.length hp
        simp at h4
        omega
      · rw [if_neg hc] at h ⊢
        cases h
        rw [drop_append_le (by omega)]
    · rw [if_neg h2] at h ⊢
      cases h
      rfl
  · rw [if_neg h1] at h ⊢
    cases h
    rfl

theorem deserializeFilter_append {p r : Ptr} {f : Filter} (h : deserializeFilter p = .ok (f, r)) (q : Ptr) :
    ∃ g, deserializeFilter (p ++ q) = .ok (g, r ++ q) := by
  unfold deserializeFilter at h ⊢
  obtain ⟨sz, hs, h⟩ := Res.bind_eq_ok.1 h
  obtain ⟨⟨o1, q1⟩, h1, h⟩ := Res.bind_eq_ok.1 h
  dsimp only at h
  obtain ⟨⟨o2, q2⟩, h2, h⟩ := Res.bind_eq_ok.1 h
  dsimp only at h
  obtain ⟨⟨o3, q3⟩, h3, h⟩ := Res.bind_eq_ok.1 h
  dsimp only at h
  obtain ⟨⟨o4, q4⟩, h4, h⟩ := Res.bind_eq_ok.1 h
  dsimp only at h
  cases h
  rw [cstrAt_append hs q, Res.bind_ok]
  obtain ⟨t, rfl, h0⟩ := cstrAt_ok hs
  rw [drop_string] at h1
  rw [List.append_assoc, List.cons_append, drop_string]
  dsimp only
  rw [takeString_append h1 q, Res.bind_ok]
  dsimp only
  rw [takeTag_append h2 q, Res.bind_ok]
  dsimp only
  rw [takeString_append h3 q, Res.bind_ok]
  dsimp only
  rw [takeString_append h4 q, Res.bind_ok]
  exact ⟨_, rfl⟩

theorem deserializeFilters_append {n : Nat} {p r : Ptr} {fs : List Filter} (h : deserializeFilters n p = .ok (fs, r))
    (q : Ptr) : ∃ gs, deserializeFilters n (p ++ q) = .ok (gs, r ++ q) := by
  induction n generalizing p fs with
  | zero => cases h; exact ⟨[], rfl⟩
  | succ n ih =>
    unfold deserializeFilters at h ⊢
    obtain ⟨⟨f, p'⟩, h1, h⟩ := Res.bind_eq_ok.1 h
    dsimp only at h
    obtain ⟨⟨fs', p''⟩, h2, h⟩ := Res.bind_eq_ok.1 h
    cases h
    obtain ⟨g, h1⟩ := deserializeFilter_append h1 q
    obtain ⟨gs, h2⟩ := ih h2
    rw [h1, Res.bind_ok]
    dsimp only
    rw [h2]
    exact ⟨_, rfl⟩

theorem readLists_append {ns : List Nat} {p r : Ptr} {ls : List (List Filter)} (h : readLists ns p = .ok (ls, r))
    (q : Ptr) : ∃ ms, readLists ns (p ++ q) = .ok (ms, r ++ q) := by
  induction ns generalizing p ls with
  | nil => cases h; exact ⟨[], rfl⟩
  | cons n ns ih =>
    unfold readLists at h ⊢
    obtain ⟨⟨f, p'⟩, h1, h⟩ := Res.bind_eq_ok.1 h
    dsimp only at h
    obtain ⟨⟨fs', p''⟩, h2, h⟩ := Res.bind_eq_ok.1 h
    cases h
    obtain ⟨g, h1⟩ := deserializeFilters_append h1 q
    obtain ⟨gs, h2⟩ := ih h2
    rw [h1, Res.bind_ok]
    dsimp only
    rw [h2]
    exact ⟨_, rfl⟩

/-! #### the only kind of undefined behaviour is a read beyond the end -/

/-- If it is undefined, then because of a read beyond the end. -/
def OnlyOob {T : Type} (x : Res T) : Prop := ∀ u, x = .ub u → u = .oobRead

theorem OnlyOob.ok {T : Type} (a : T) : OnlyOob (.ok a) := fun _ h => by cases h

theorem OnlyOob.oob {T : Type} : OnlyOob (.ub .oobRead : Res T) := fun _ h => by cases h; rfl

theorem OnlyOob.bind {S T : Type} {x : Res S} {f : S → Res T} (hx : OnlyOob x) (hf : ∀ a, x = .ok a → OnlyOob (f a)) :
    OnlyOob (x >>= f) := by
  intro u h
  cases x with
  | ok a => exact hf a rfl u h
  | ub v =>
    cases h
    exact hx u rfl

theorem OnlyOob.ite {T : Type} {P : Prop} [Decidable P] {x y : Res T} (hx : OnlyOob x) (hy : OnlyOob y) :
    OnlyOob (if P then x else y) := by
  by_cases h : P
  · rwa [if_pos h]
  · rwa [if_neg h]

theorem OnlyOob.eq {T : Type} {x : Res T} (hx : OnlyOob x) (h : ∀ a, x ≠ .ok a) : x = .ub .oobRead := by
  cases x with
  | ok a => exact absurd rfl (h a)
  | ub u => rw [hx u rfl]

/-- A read beyond the end in the first or, after it, in the second step. -/
theorem bind_oob {S T : Type} {x : Res S} {f : S → Res T} (hx : OnlyOob x) (hf : ∀ a, x = .ok a → f a = .ub .oobRead) :
    x >>= f = .ub .oobRead := by
  cases x with
  | ok a => exact hf a rfl
  | ub u => rw [hx u rfl]; rfl

theorem rd_oob (p : Ptr) (i : Nat) : OnlyOob (rd p i) := by
  unfold rd
  split
  · exact .ok _
  · exact .oob

theorem cstrAt_oob (p : Ptr) : OnlyOob (cstrAt p) := by
  induction p with
  | nil => exact .oob
  | cons c p ih =>
    unfold cstrAt
    refine .ite (.ok _) ?_
    cases h : cstrAt p with
    | ok s => exact .ok _
    | ub u => rw [ih u h]; exact .oob

theorem takeString_oob (p : Ptr) : OnlyOob (takeString p) := .bind (cstrAt_oob p) fun _ _ => .ok _

theorem takeTag_oob (p : Ptr) : OnlyOob (takeTag p) := by
  refine .bind (rd_oob p 0) fun _ _ => .ite (.bind (rd_oob p 1) fun _ _ => .ite ?_ (.ok _)) (.ok _)
  exact .bind (cstrAt_oob _) fun _ _ => .ok _

theorem deserializeFilter_oob (p : Ptr) : OnlyOob (deserializeFilter p) :=
  .bind (cstrAt_oob p) fun _ _ => .bind (takeString_oob _) fun _ _ => .bind (takeTag_oob _) fun _ _ =>
    .bind (takeString_oob _) fun _ _ => .bind (takeString_oob _) fun _ _ => .ok _

theorem deserializeFilters_oob (n : Nat) (p : Ptr) : OnlyOob (deserializeFilters n p) := by
  induction n generalizing p with
  | zero => exact .ok _
  | succ n ih => exact .bind (deserializeFilter_oob p) fun _ _ => .bind (ih _) fun _ _ => .ok _

theorem readLists_oob (ns : List Nat) (p : Ptr) : OnlyOob (readLists ns p) := by
  induction ns generalizing p with
  | nil => exact .ok _
  | cons n ns ih => exact .bind (deserializeFilters_oob n p) fun _ _ => .bind (ih _) fun _ _ => .ok _

theorem hasNewlineBefore_oob (p : Ptr) (n : Nat) : OnlyOob (hasNewlineBefore p n) := by
  induction n generalizing p with
  | zero => unfold hasNewlineBefore; exact .ok _
  | succ n ih =>
    cases p with
    | nil => exact .oob
    | cons c p => unfold hasNewlineBefore; exact .ite (.ok _) (ih p)

theorem deserializeDomain_oob (p : Ptr) (n : Nat) : OnlyOob (deserializeDomain p n) :=
  .bind (cstrAt_oob p) fun _ _ => .ite (.ok _) (.ok _)

theorem entry_oob (p : Ptr) (n : Nat) : OnlyOob (Filter.deserialize p n) :=
  .bind (hasNewlineBefore_oob p n) fun _ _ => .ite (.ok _) (.bind (cstrAt_oob p) fun _ _ => .ite (.ok _)
    (.bind (takeString_oob _) fun _ _ => .bind (takeTag_oob _) fun _ _ => .bind (takeString_oob _) fun _ _ => .ok _))

theorem initBloom_oob (E : Env) (p : Ptr) (n : Nat) : OnlyOob (initBloomFilter E p n) :=
  .ite (.ok _) (.ite (.ok _) .oob)

/-! #### entries of hash sets -/

/-- Bytes behind those with which `de` succeeds, or refuses, do not change that, nor the number of
bytes used. -/
def Extends {T : Type} (de : Ptr → Nat → Res (Option (T × Nat))) : Prop :=
  ∀ p q size y, de p size = .ok y → ∃ y', de (p ++ q) size = .ok y' ∧ y'.map (·.2) = y.map (·.2)

theorem hasNewlineBefore_mono {p : Ptr} {n : Nat} {b : Bool} (h : hasNewlineBefore p n = .ok b) (q : Ptr) :
    hasNewlineBefore (p ++ q) n = .ok b := by
  induction n generalizing p with
  | zero => simpa [hasNewlineBefore] using h
  | succ n ih =>
    cases p with
    | nil => simp [hasNewlineBefore] at h
    | cons c p =>
      rw [List.cons_append]
      unfold hasNewlineBefore at h ⊢
      by_cases hc : c = 0
      · rw [if_pos hc] at h ⊢
        exact h
      · rw [if_neg hc] at h ⊢
        exact ih h

theorem deserializeDomain_extends : Extends deserializeDomain := by
  intro p q size y h
  unfold deserializeDomain at h ⊢
  obtain ⟨sz, hs, h⟩ := Res.bind_eq_ok.1 h
  rw [cstrAt_append hs q, Res.bind_ok]
  by_cases hc : add32 (sz.length + 1) ((scanXs [0] sz).getD 0 0).toNat ≥ size
  · rw [if_pos hc] at h ⊢
    cases h
    exact ⟨none, rfl, rfl⟩
  · rw [if_neg hc] at h ⊢
    cases h
    exact ⟨_, rfl, rfl⟩

theorem takeString_length {p r : Ptr} {o : Option Bytes} (h : takeString p = .ok (o, r)) : p ≠ [] := by
  rintro rfl
  simp [takeString, cstrAt] at h

theorem entry_extends : Extends Filter.deserialize := by
  intro p q size y h
  unfold Filter.deserialize at h ⊢
  obtain ⟨b, hb, h⟩ := Res.bind_eq_ok.1 h
  rw [hasNewlineBefore_mono hb q, Res.bind_ok]
  cases b with
  | false =>
    cases h
    exact ⟨none, rfl, rfl⟩
  | true =>
    simp only [Bool.not_true, Bool.false_eq_true, if_false] at h ⊢
    obtain ⟨sz, hs, h⟩ := Res.bind_eq_ok.1 h
    rw [cstrAt_append hs q, Res.bind_ok]
    by_cases hc : add32 (sz.length + 1) ((scanXs [0, 0, 0, 0] sz).getD 0 0).toNat ≥ size
    · rw [if_pos hc] at h ⊢
      cases h
      exact ⟨none, rfl, rfl⟩
    · rw [if_neg hc] at h ⊢
      obtain ⟨⟨o1, q1⟩, h1, h⟩ := Res.bind_eq_ok.1 h
      dsimp only at h
      obtain ⟨⟨o2, q2⟩, h2, h⟩ := Res.bind_eq_ok.1 h
      dsimp only at h
      obtain ⟨⟨o3, q3⟩, h3, h⟩ := Res.bind_eq_ok.1 h
      dsimp only at h
      cases h
      have hn := takeString_length h1
      rw [drop_append_le (by
        by_cases hl : add32 (sz.length + 1) ((scanXs [0, 0, 0, 0] sz).getD 0 0).toNat ≤ p.length
        · exact hl
        · exact absurd (List.drop_eq_nil_of_le (by omega)) hn)]
      rw [takeString_append h1 q, Res.bind_ok]
      dsimp only
      rw [takeTag_append h2 q, Res.bind_ok]
      dsimp only
      rw [takeString_append h3 q, Res.bind_ok]
      refine ⟨_, rfl, ?_⟩
      simp only [Option.map_some, List.length_append, Nat.add_sub_add_right]

section sets
variable {T U : Type} {enc : T → Bytes} {de : Ptr → Nat → Res (Option (U × Nat))} {R : T → U → Prop}

theorem append_split {p q a b : Ptr} (h : p ++ q = a ++ b) (hl : a.length ≤ p.length) : ∃ r, p = a ++ r ∧ r ++ q = b := by
  rcases List.append_eq_append_iff.1 h with ⟨r, hr, hb⟩ | ⟨r, hr, hb⟩
  · have := congrArg List.length hr
    simp at this
    have hz : r = [] := List.eq_nil_of_length_eq_zero (by omega)
    subst hz
    refine ⟨[], by simpa using hr.symm, by simpa using hb⟩
  · exact ⟨r, hr, hb.symm⟩

/-- A bucket that is cut off before its end. -/
theorem items_truncated (hx : Extends de) (ho : ∀ p n, OnlyOob (de p n)) {xs : List T}
    (h : ∀ x ∈ xs, ItemReads de R x (enc x)) {p q : Ptr} (hp : p ++ q = xs.flatMap enc) {fuel size : Nat}
    (hf : xs.length < fuel) (hs : (xs.flatMap enc).length < size) : deserializeItems de fuel p size = .ub .oobRead := by
  induction xs generalizing p fuel size with
  | nil =>
    have : p = [] := by simpa using (List.append_eq_nil_iff.1 hp).1
    subst this
    cases fuel with
    | zero => simp at hf
    | succ k => simp [deserializeItems]
  | cons x xs ih =>
    cases fuel with
    | zero => simp at hf
    | succ k =>
      cases p with
      | nil => simp [deserializeItems]
      | cons c p =>
        obtain ⟨c', s, e, hc⟩ := (h x (by simp)).head
        rw [List.flatMap_cons] at hp hs
        rw [List.length_append] at hs
        have hcc : c = c' := by
          rw [e, List.cons_append, List.cons_append] at hp
          exact (List.cons.inj hp).1
        subst hcc
        unfold deserializeItems
        rw [rd_cons_zero, Res.bind_ok, if_neg hc, if_neg (by omega)]
        refine bind_oob (ho _ _) fun y hy => ?_
        obtain ⟨y', hy', hn⟩ := hx _ q size y hy
        rw [hp] at hy'
        obtain ⟨z, hz, _⟩ := (h x (by simp)).read (xs.flatMap enc) size (by omega)
        rw [hz] at hy'
        cases hy'
        cases y with
        | none => simp at hn
        | some yn =>
          obtain ⟨y, n⟩ := yn
          simp only [Option.map_some, Option.some.injEq] at hn
          subst hn
          dsimp only
          rw [if_neg (by omega)]
          have hi : deserializeItems de k ((c :: p).drop (enc x).length) (size - (enc x).length) = .ub .oobRead := by
            by_cases hl : (enc x).length ≤ (c :: p).length
            · obtain ⟨p', hp', hp⟩ := append_split hp hl
              rw [hp', List.drop_left]
              exact ih (fun y hy => h y (by simp [hy])) hp (by simpa using hf) (by omega)
            · rw [List.drop_eq_nil_of_le (by omega)]
              cases k with
              | zero =>
                obtain ⟨_, _, e', _⟩ := (h x (by simp)).head
                exfalso
                simp at hf
              | succ k => simp [deserializeItems]
          rw [hi]
          rfl

theorem buckets_truncated (hx : Extends de) (ho : ∀ p n, OnlyOob (de p n)) {bs : List (List T)}
    (h : ∀ b ∈ bs, ∀ x ∈ b, ItemReads de R x (enc x)) {p q : Ptr} (hp : p ++ q = bucketBytes enc bs) (hq : q ≠ [])
    {size : Nat} (hs : (bucketBytes enc bs).length ≤ size) : deserializeBuckets de bs.length p size = .ub .oobRead := by
  induction bs generalizing p size with
  | nil => exact absurd (List.append_eq_nil_iff.1 hp).2 hq
  | cons b bs ih =>
    have e : bucketBytes enc (b :: bs) = (b.flatMap enc ++ [0]) ++ bucketBytes enc bs := by simp [bucketBytes]
    rw [e] at hp hs
    simp only [List.length_append, List.length_singleton] at hs
    have hb := h b (by simp)
    have hl := items_length hb
    simp only [List.length_cons, deserializeBuckets]
    by_cases hc : (b.flatMap enc ++ [0]).length ≤ p.length
    · obtain ⟨p', rfl, hp'⟩ := append_split hp hc
      obtain ⟨ys, hys, _⟩ := deserializeItems_eq hb p' (size + 1) size (by omega) (by omega)
      rw [show b.flatMap enc ++ 0 :: p' = b.flatMap enc ++ [0] ++ p' by simp] at hys
      rw [hys, Res.bind_ok]
      dsimp only
      rw [List.drop_succ_cons, List.drop_zero, ih (fun y hy => h y (by simp [hy])) hp' (by omega)]
      rfl
    · simp only [List.length_append, List.length_singleton] at hc
      rw [List.append_assoc] at hp
      obtain ⟨q', hq', _⟩ := append_split hp.symm (show p.length ≤ (b.flatMap enc).length by omega)
      rw [items_truncated hx ho hb hq'.symm (by omega) (by omega)]
      rfl

theorem set_truncated (hx : Extends de) (ho : ∀ p n, OnlyOob (de p n)) {s : HSet T}
    (h : ∀ i, i < s.count → ∀ x ∈ s.bucket i, ItemReads de R x (enc x))
    (hm : s.count < 2 ^ 32) {p q : Ptr} (hp : p ++ q = setBytes enc s) (hq : q ≠ []) :
    HSet.deserialize de p (setBytes enc s).length = .ub .oobRead := by
  have hb : ∀ b ∈ s.buckets, ∀ x ∈ b, ItemReads de R x (enc x) := by
    intro b hb
    obtain ⟨i, hi, rfl⟩ := List.mem_map.1 hb
    exact h i (List.mem_range.1 hi)
  have hlen : s.buckets.length = s.count := by simp [HSet.buckets]
  have h0 := fmtX_no_zero (BitVec.ofNat 32 s.count)
  have hsl : (setBytes enc s).length = (fmtX (BitVec.ofNat 32 s.count)).length + 1 + (bucketBytes enc s.buckets).length := by
    simp [setBytes]
    omega
  have hscan : (scanXs [0] (fmtX (BitVec.ofNat 32 s.count))).getD 0 0 = BitVec.ofNat 32 s.count := by
    have := scanXs_fmtXs [BitVec.ofNat 32 s.count] [0] rfl
    simp only [fmtXs] at this
    rw [this]
    rfl
  unfold HSet.deserialize
  refine bind_oob (hasNewlineBefore_oob _ _) fun b hbn => ?_
  have hbn' := hasNewlineBefore_mono hbn q
  have hfull : setBytes enc s = fmtX (BitVec.ofNat 32 s.count) ++ 0 :: bucketBytes enc s.buckets := by simp [setBytes]
  have hbt : b = true := by
    rw [hp, hsl, hfull, hasNewlineBefore_append (by omega) h0] at hbn'
    cases hbn'
    rfl
  subst hbt
  simp only [Bool.not_true, Bool.false_eq_true, if_false]
  refine bind_oob (cstrAt_oob _) fun sz hsz => ?_
  have hsz' := cstrAt_append hsz q
  rw [hp, hfull, cstrAt_cstr h0] at hsz'
  cases hsz'
  obtain ⟨t, ht, _⟩ := cstrAt_ok hsz
  subst ht
  rw [hfull, List.append_assoc, List.cons_append] at hp
  have hp := (List.cons.inj (List.append_cancel_left hp)).2
  have hne : 0 < (bucketBytes enc s.buckets).length := by
    rw [← hp, List.length_append]
    have := List.length_pos_iff.2 hq
    omega
  rw [if_neg (by omega), hscan, drop_string, BitVec.toNat_ofNat, Nat.mod_eq_of_lt hm]
  have := buckets_truncated hx ho hb hp hq (size := (setBytes enc s).length - ((fmtX (BitVec.ofNat 32 s.count)).length + 1))
    (by omega)
  rw [hlen] at this
  rw [this]
  rfl

end sets

/-! #### the client -/

theorem initBloom_prefix {E : Env} {b : Bytes} {p q s : Ptr} (hp : p ++ q = b ++ s) {o : Option E.fp.B}
    (h : initBloomFilter E p b.length = .ok o) : ∃ r, p = b ++ r ∧ r ++ q = s := by
  apply append_split hp
  unfold initBloomFilter at h
  by_cases h0 : b.length = 0
  · omega
  · rw [if_neg h0] at h
    by_cases hl : b.length ≤ p.length
    · exact hl
    · rw [if_neg hl] at h
      cases h

theorem prefix_or_short {p q b s : Ptr} (hp : p ++ q = b ++ s) :
    (∃ r, p = b ++ r ∧ r ++ q = s) ∨ ∃ q', q' ≠ [] ∧ p ++ q' = b := by
  by_cases hl : b.length ≤ p.length
  · exact .inl (append_split hp hl)
  · obtain ⟨q', hq', _⟩ := append_split hp.symm (by omega)
    refine .inr ⟨q', ?_, hq'.symm⟩
    rintro rfl
    rw [List.append_nil] at hq'
    subst hq'
    exact hl (Nat.le_refl _)

theorem initHost_prefix {s : Option (HSet Filter)} (h : ∀ t, s = some t → StorableSet CleanEntry t) {p q r : Ptr}
    (hp : p ++ q = hostBytes s ++ r) : initHashSet Filter.deserialize p (hostBytes s).length = .ub .oobRead ∨
      ∃ p', p = hostBytes s ++ p' ∧ p' ++ q = r := by
  rcases prefix_or_short hp with h' | ⟨q', hq', hb⟩
  · exact .inr h'
  · cases s with
    | none => exact absurd (List.append_eq_nil_iff.1 hb).2 hq'
    | some s =>
      have hs := h s rfl
      refine .inl ?_
      simp only [initHashSet, hostBytes, setBytes_ne_nil, if_false]
      rw [set_truncated (R := fun f g => SameEntry (rereadEntry f) g) entry_extends entry_oob
        (fun i hi x hx => entry_rereads (hs.entries i hi x hx)) hs.count.2 hb hq']
      rfl

theorem initDom_prefix {s : Option (HSet Bytes)} (h : ∀ t, s = some t → StorableSet (fun x => x.length < 2 ^ 31) t)
    {p q r : Ptr} (hp : p ++ q = domBytes s ++ r) : initHashSet deserializeDomain p (domBytes s).length = .ub .oobRead ∨
      ∃ p', p = domBytes s ++ p' ∧ p' ++ q = r := by
  rcases prefix_or_short hp with h' | ⟨q', hq', hb⟩
  · exact .inr h'
  · cases s with
    | none => exact absurd (List.append_eq_nil_iff.1 hb).2 hq'
    | some s =>
      have hs := h s rfl
      refine .inl ?_
      simp only [initHashSet, domBytes, setBytes_ne_nil, if_false]
      rw [set_truncated (R := Eq) deserializeDomain_extends deserializeDomain_oob
        (fun i hi x hx => domain_reads (hs.entries i hi x hx)) hs.count.2 hb hq']
      rfl

theorem readSets_truncated {ss : List (Option (HSet Bytes))}
    (h : ∀ s ∈ ss, ∀ t, s = some t → StorableSet (fun x => x.length < 2 ^ 31) t) {p q : Ptr} (hq : q ≠ [])
    (hp : p ++ q = ss.flatMap domBytes) :
    readSets (ss.map fun s => (domBytes s).length) p = .ub .oobRead := by
  induction ss generalizing p with
  | nil => exact absurd (List.append_eq_nil_iff.1 hp).2 hq
  | cons s ss ih =>
    simp only [List.map_cons, readSets]
    rw [List.flatMap_cons] at hp
    rcases initDom_prefix (h s (by simp)) hp with hx | ⟨p', rfl, hp'⟩
    · rw [hx]
      rfl
    · obtain ⟨t, e', _⟩ := initDom_eq (h s (by simp)) p'
      rw [e', Res.bind_ok]
      dsimp only
      rw [List.drop_left, ih (fun m hm => h m (by simp [hm])) hp']
      rfl

/-- Data that are cut off cannot be read without reading beyond their end. -/
theorem deserialize_truncated {E} {c : Client E} {ic ih : Bool} (h : ReadableClient ic ih c)
    (hs : (c.bytes ic ih).length < 2 ^ 31) (d : Client E) {p q : Ptr} (hp : p ++ q = c.bytes ic ih) (hq : q ≠ []) :
    d.deserialize p = .ub .oobRead := by
  have hsec : c.sections.flatten = bloomSection c.bloom ++ (bloomSection c.exceptionBloom ++ (hostBytes c.hostSet ++
      (hostBytes c.hostExceptionSet ++ (storedSets.map c.domSets).flatMap domBytes))) := by
    simp [Client.sections, storedSets]
  have hz := fmtXs_no_zero ((c.header ic ih).map (BitVec.ofNat 32))
  have hbytes : c.bytes ic ih = fmtXs ((c.header ic ih).map (BitVec.ofNat 32)) ++
      0 :: ((c.arrays ic ih).flatMap arrayBytes ++ c.sections.flatten) := by
    simp [Client.bytes]
  have h10 : (c.header ic ih).take 10 = (c.arrays ic ih).map List.length := by
    simp [Client.header, Client.arrays, storedLists]
  have h16 : (c.header ic ih).drop 16 = (storedSets.map c.domSets).map fun s => (domBytes s).length := by
    simp [Client.header, Client.arrays, storedLists, Client.sections, storedSets]
  have g12 : (c.header ic ih).getD 12 0 = (bloomSection c.bloom).length := rfl
  have g13 : (c.header ic ih).getD 13 0 = (bloomSection c.exceptionBloom).length := rfl
  have g14 : (c.header ic ih).getD 14 0 = (hostBytes c.hostSet).length := rfl
  have g15 : (c.header ic ih).getD 15 0 = (hostBytes c.hostExceptionSet).length := rfl
  unfold Client.deserialize
  dsimp only
  refine bind_oob (cstrAt_oob _) fun sz hsz => ?_
  have hsz' := cstrAt_append hsz q
  rw [hp, hbytes, cstrAt_cstr hz] at hsz'
  cases hsz'
  obtain ⟨t, ht, _⟩ := cstrAt_ok hsz
  subst ht
  rw [hbytes, List.append_assoc, List.cons_append] at hp
  have hp := (List.cons.inj (List.append_cancel_left hp)).2
  rw [scanXs_fmtXs _ (List.replicate 20 0) (by simp [header_length]), headerNats_eq (header_small h.counters hs),
    Res.bind_ok]
  simp only [h10, h16, g12, g13, g14, g15, drop_string]
  refine bind_oob (readLists_oob _ _) fun lp hl => ?_
  obtain ⟨ls, p1⟩ := lp
  dsimp only
  -- the arrays
  obtain ⟨ms, hl'⟩ := readLists_append hl q
  obtain ⟨ms', hms, _⟩ := readLists_reread h.rules c.sections.flatten
  rw [hp, hms] at hl'
  have hp1 : p1 ++ q = c.sections.flatten := by
    simp only [Res.ok.injEq, Prod.mk.injEq] at hl'
    exact hl'.2.symm
  rw [hsec] at hp1
  -- the bloom filters
  refine bind_oob (initBloom_oob _ _ _) fun b1 hb1 => ?_
  obtain ⟨p2, rfl, hp2⟩ := initBloom_prefix hp1 hb1
  simp only [List.drop_left]
  refine bind_oob (initBloom_oob _ _ _) fun b2 hb2 => ?_
  obtain ⟨p3, rfl, hp3⟩ := initBloom_prefix hp2 hb2
  simp only [List.drop_left]
  -- the hash sets
  rcases initHost_prefix h.hostSet hp3 with hs1 | ⟨p4, rfl, hp4⟩
  · rw [hs1]
    rfl
  obtain ⟨t1, e1, _⟩ := initHost_reread h.hostSet p4
  rw [e1, Res.bind_ok]
  dsimp only
  simp only [List.drop_left]
  rcases initHost_prefix h.hostExceptionSet hp4 with hs2 | ⟨p5, rfl, hp5⟩
  · rw [hs2]
    rfl
  obtain ⟨t2, e2, _⟩ := initHost_reread h.hostExceptionSet p5
  rw [e2, Res.bind_ok]
  dsimp only
  simp only [List.drop_left]
  rw [readSets_truncated (ss := storedSets.map c.domSets) (by
    intro s hs t ht
    obtain ⟨d, _, rfl⟩ := List.mem_map.1 hs
    exact h.domSets d t ht) hq hp5]
  rfl

end AdBlock
