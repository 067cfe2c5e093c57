import Verif.Model.Cosmetic
import Verif.Model.Toy
/-
C49: the style sheet made from a set of cosmetic filters.
-/
namespace AdBlock

/-! ### specification -/

/-- The selectors as a style sheet has them: separated by a comma and a blank. -/
def Spec.selectorList : List Bytes → Bytes
  | [] => []
  | [x] => x
  | x :: xs => x ++ bs%", " ++ selectorList xs

/-- The style sheet of the set to which the given selectors were added, in this order. -/
def Spec.stylesheetOf (E : Env) (sels : List Bytes) : Res Bytes := toStylesheet (sels.foldl (addCosmetic E) cosmeticSet)

open Spec

/-! ### proofs -/

theorem memcpyAt_eq {b w : Bytes} {n : Nat} {b' : Bytes} (h : memcpyAt b n w = .ok b') :
    n + w.length ≤ b.length ∧ b'.length = b.length ∧ b' = b.take n ++ w ++ b.drop (n + w.length) := by
  unfold memcpyAt at h
  split at h
  · rename_i hl
    cases h
    refine ⟨hl, ?_, rfl⟩
    simp only [List.length_append, List.length_take, List.length_drop]
    omega
  · cases h

/-- without a buffer the loop only counts -/
theorem fillItems_none (xs : List Bytes) (len : Nat) : fillItems xs none len = .ok (none, len + (selectorList xs).length) := by
  induction xs generalizing len with
  | nil => simp [fillItems, selectorList]
  | cons x xs ih =>
    cases xs with
    | nil => simp [fillItems, optWrite, selectorList]
    | cons y ys =>
      rw [fillItems]
      simp only [optWrite, Res.pure_eq, Res.bind_ok, List.isEmpty_cons, Bool.false_eq_true, if_false, ih, selectorList]
      simp only [List.length_append, List.length_cons, List.length_nil]
      congr 2
      omega

theorem memcpyAt_append (b v w : Bytes) (n : Nat) :
    (memcpyAt b n v >>= fun b => memcpyAt b (n + v.length) w) = memcpyAt b n (v ++ w) := by
  by_cases h : n + (v ++ w).length ≤ b.length
  · have h' := h
    rw [List.length_append] at h'
    rw [memcpyAt, if_pos (by omega), Res.pure_eq, Res.bind_ok, memcpyAt, if_pos, memcpyAt, if_pos h]
    · have e1 : (List.take n b ++ v ++ List.drop (n + v.length) b).take (n + v.length) = List.take n b ++ v := by
        rw [List.take_append_of_le_length (by simp; omega), List.take_of_length_le (by simp; omega)]
      have e2 : (List.take n b ++ v ++ List.drop (n + v.length) b).drop (n + v.length + w.length) =
          b.drop (n + (v ++ w).length) := by
        rw [List.drop_append, List.drop_of_length_le (by simp; omega), List.nil_append, List.drop_drop]
        congr 1
        simp
        omega
      rw [e1, e2, List.append_assoc, List.append_assoc, List.append_assoc, List.append_assoc]
    · simp only [List.length_append, List.length_take, List.length_drop]
      omega
  · rw [memcpyAt.eq_def b n (v ++ w), if_neg h]
    rw [List.length_append] at h
    by_cases h' : n + v.length ≤ b.length
    · rw [memcpyAt, if_pos h', Res.pure_eq, Res.bind_ok, memcpyAt, if_neg]
      simp only [List.length_append, List.length_take, List.length_drop]
      omega
    · rw [memcpyAt, if_neg h', Res.bind_ub]

/-- with a buffer the loop over the items writes the list of selectors -/
theorem fillItems_some (xs : List Bytes) (b : Bytes) (len : Nat) (hl : len ≤ b.length) :
    fillItems xs (some b) len =
      (fun b => (some b, len + (selectorList xs).length)) <$> memcpyAt b len (selectorList xs) := by
  induction xs generalizing len b with
  | nil => simp [fillItems, selectorList, memcpyAt, hl]
  | cons x xs ih =>
    cases xs with
    | nil =>
      rw [fillItems]
      simp only [optWrite, List.isEmpty_nil, if_true, selectorList]
      cases memcpyAt b len x with
      | ub u => rfl
      | ok b' => simp [fillItems]
    | cons y ys =>
      rw [fillItems]
      simp only [optWrite, List.isEmpty_cons, Bool.false_eq_true, if_false]
      rw [selectorList, ← memcpyAt_append, ← memcpyAt_append]
      · cases h1 : memcpyAt b len x with
        | ub u => rfl
        | ok b1 =>
          simp only [Res.map_ok, Res.bind_ok]
          cases h2 : memcpyAt b1 (len + x.length) bs%", " with
          | ub u => rfl
          | ok b2 =>
            simp only [Res.map_ok, Res.bind_ok]
            obtain ⟨h3, h4, _⟩ := memcpyAt_eq h2
            rw [ih]
            · simp only [List.length_append, show ∀ a b : UInt8, [a, b].length = 2 from fun _ _ => rfl, Nat.add_assoc]
            · simp only [List.length_cons, List.length_nil] at h3
              omega
      · nofun

theorem fillBuckets_none (bs : List (List Bytes)) (b : List Bytes) (len : Nat) :
    fillBuckets (bs ++ [b]) none len = .ok (none, (selectorList b).length) := by
  induction bs generalizing len with
  | nil => simp [fillBuckets, fillItems_none]
  | cons x bs ih => simp [fillBuckets, fillItems_none, ih]

theorem fillBuckets_some (bs : List (List Bytes)) (buf : Bytes) (len : Nat) :
    (∀ b ∈ bs, (selectorList b).length ≤ buf.length) →
    ∃ buf' len', buf'.length = buf.length ∧ fillBuckets bs (some buf) len = .ok (some buf', len') := by
  induction bs generalizing buf len with
  | nil => intro _; exact ⟨buf, len, rfl, rfl⟩
  | cons x bs ih =>
    intro h
    have hx : memcpyAt buf 0 (selectorList x) =
        .ok (buf.take 0 ++ selectorList x ++ buf.drop (0 + (selectorList x).length)) := by
      rw [memcpyAt, if_pos (by have := h x (by simp); omega)]
      rfl
    obtain ⟨_, h2, _⟩ := memcpyAt_eq hx
    rw [fillBuckets, fillItems_some _ _ _ (Nat.zero_le _), hx]
    simp only [Res.map_ok, Res.bind_ok]
    obtain ⟨b', l', h3, h4⟩ := ih _ (0 + (selectorList x).length) (fun b hb => by rw [h2]; exact h b (by simp [hb]))
    exact ⟨b', l', by rw [h3, h2], h4⟩

theorem fillBuckets_append (bs bs' : List (List Bytes)) (buf : Option Bytes) (len : Nat) :
    fillBuckets (bs ++ bs') buf len = fillBuckets bs buf len >>= fun x => fillBuckets bs' x.1 x.2 := by
  induction bs generalizing buf len with
  | nil => rfl
  | cons x bs ih =>
    simp only [List.cons_append, fillBuckets]
    cases fillItems x buf 0 with
    | ub u => rfl
    | ok y => simp only [Res.bind_ok, ih]

/-- **C49**, exactly: the size of the buffer is that of the text of the last bucket, so the
program writes beyond it unless no other bucket has a longer text; if it does not, the text
of the last bucket is all there is in the end. -/
theorem C49_exact (s : HSet Bytes) (n : Nat) (hn : s.count = n + 1) :
    toStylesheet s = if ∀ i ≤ n, (selectorList (s.bucket i)).length ≤ (selectorList (s.bucket n)).length
      then .ok (selectorList (s.bucket n)) else .ub .oobWrite := by
  have hr : (List.range s.count).map s.bucket = (List.range n).map s.bucket ++ [s.bucket n] := by
    rw [hn, List.range_succ, List.map_append]
    rfl
  unfold toStylesheet fillStylesheetBuffer
  rw [hr, fillBuckets_none]
  simp only [Res.bind_ok]
  split
  · rename_i h
    rw [fillBuckets_append]
    obtain ⟨b, l, h1, h2⟩ := fillBuckets_some ((List.range n).map s.bucket)
      (List.replicate (selectorList (s.bucket n)).length 0) 0 (by
        intro x hx
        obtain ⟨i, hi, rfl⟩ := List.mem_map.1 hx
        rw [List.length_replicate]
        exact h i (Nat.le_of_lt (List.mem_range.1 hi)))
    rw [List.length_replicate] at h1
    rw [h2]
    simp only [Res.bind_ok, fillBuckets]
    rw [fillItems_some _ _ _ (Nat.zero_le _), memcpyAt, if_pos (by omega)]
    simp only [List.take_zero, List.nil_append, Nat.zero_add, Res.pure_eq, Res.map_ok, Res.bind_ok, Option.getD_some]
    rw [List.drop_of_length_le (by omega), List.append_nil]
  · rename_i h
    have key : ∀ (bs : List (List Bytes)) (buf : Bytes) (len : Nat), (∃ b ∈ bs, buf.length < (selectorList b).length) →
        fillBuckets bs (some buf) len = .ub .oobWrite := by
      intro bs
      induction bs with
      | nil => rintro buf len ⟨b, hb, _⟩; cases hb
      | cons x bs ih =>
        rintro buf len ⟨b, hb, hl⟩
        rw [fillBuckets, fillItems_some _ _ _ (Nat.zero_le _)]
        by_cases hx : 0 + (selectorList x).length ≤ buf.length
        · have e := memcpyAt.eq_def buf 0 (selectorList x)
          rw [if_pos hx] at e
          rw [e]
          simp only [Res.pure_eq, Res.map_ok, Res.bind_ok]
          apply ih
          obtain ⟨_, h2, _⟩ := memcpyAt_eq e
          rw [h2]
          rcases List.mem_cons.1 hb with rfl | hb
          · omega
          · exact ⟨b, hb, hl⟩
        · rw [memcpyAt, if_neg hx]
          rfl
    rw [key]
    · rfl
    · rw [Classical.not_forall] at h
      obtain ⟨i, h⟩ := h
      rw [Classical.not_imp] at h
      refine ⟨s.bucket i, ?_, by rw [List.length_replicate]; omega⟩
      rw [← hr, hn]
      exact List.mem_map_of_mem (List.mem_range.2 (by omega))

/-- the buckets of the set after some selectors were added -/
theorem cosmetic_buckets (E : Env) (sels : List Bytes) :
    (sels.foldl (addCosmetic E) cosmeticSet).count = 1000 ∧
    ∀ i, (sels.foldl (addCosmetic E) cosmeticSet).bucket i =
      sels.foldl (fun l x => if E.hash x % 1000 = i then if l.contains x then l else l ++ [x] else l) [] := by
  have key : ∀ (s : HSet Bytes), s.count = 1000 → (sels.foldl (addCosmetic E) s).count = 1000 ∧
      ∀ i, (sels.foldl (addCosmetic E) s).bucket i =
        sels.foldl (fun l x => if E.hash x % 1000 = i then if l.contains x then l else l ++ [x] else l) (s.bucket i) := by
    induction sels with
    | nil => intro s hs; exact ⟨hs, fun _ => rfl⟩
    | cons x sels ih =>
      intro s hs
      simp only [List.foldl_cons]
      obtain ⟨h1, h2⟩ := ih (addCosmetic E s x) hs
      refine ⟨h1, fun i => ?_⟩
      rw [h2]
      congr 1
      simp only [addCosmetic, HSet.add, hs]
      by_cases hi : i = E.hash x % 1000
      · rw [if_pos hi, if_pos hi.symm]
        by_cases hc : x ∈ s.bucket i
        · rw [if_pos (by simpa using hc), if_pos (by simpa using hc)]
        · rw [if_neg (by simpa using hc), if_neg (by simpa using hc)]
      · rw [if_neg hi, if_neg (fun e => hi e.symm)]
  exact key cosmeticSet rfl

/-- a list without its repetitions, first occurrences kept -/
def Spec.firstOccurrences (l : List Bytes) : List Bytes := l.foldl (fun l x => if l.contains x then l else l ++ [x]) []

theorem bucket_all (E : Env) {sels : List Bytes} {i : Nat} (h : ∀ x ∈ sels, E.hash x % 1000 = i) (acc : List Bytes) :
    sels.foldl (fun l x => if E.hash x % 1000 = i then if l.contains x then l else l ++ [x] else l) acc =
      sels.foldl (fun l x => if l.contains x then l else l ++ [x]) acc := by
  induction sels generalizing acc with
  | nil => rfl
  | cons x sels ih =>
    simp only [List.foldl_cons, h x (by simp), if_true]
    exact ih (fun y hy => h y (by simp [hy])) _

theorem bucket_none (E : Env) {sels : List Bytes} {i : Nat} (h : ∀ x ∈ sels, E.hash x % 1000 ≠ i) (acc : List Bytes) :
    sels.foldl (fun l x => if E.hash x % 1000 = i then if l.contains x then l else l ++ [x] else l) acc = acc := by
  induction sels generalizing acc with
  | nil => rfl
  | cons x sels ih =>
    simp only [List.foldl_cons, if_neg (h x (by simp))]
    exact ih (fun y hy => h y (by simp [hy])) _

/-- **C49** (partial: only for selectors which all fall into the last bucket of the table): the
style sheet lists each selector once, separated by ", ". -/
theorem C49_partial (E : Env) {sels : List Bytes} (h : ∀ x ∈ sels, E.hash x % 1000 = 999) :
    stylesheetOf E sels = .ok (selectorList (firstOccurrences sels)) := by
  obtain ⟨h1, h2⟩ := cosmetic_buckets E sels
  unfold stylesheetOf
  rw [C49_exact _ 999 h1]
  have hl : (sels.foldl (addCosmetic E) cosmeticSet).bucket 999 = firstOccurrences sels := by
    rw [h2, bucket_all E h]
    rfl
  rw [if_pos, hl]
  intro i hi
  by_cases he : i = 999
  · rw [he]; exact Nat.le_refl _
  · rw [h2 i, bucket_none E (fun x hx e => he (by rw [← e, h x hx]))]
    simp [selectorList]

theorem selectorList_ne {xs : List Bytes} (h : ∃ x ∈ xs, x ≠ []) : selectorList xs ≠ [] := by
  obtain ⟨x, hx, hne⟩ := h
  match xs, hx with
  | [y], hx => simp only [List.mem_singleton] at hx; subst hx; exact hne
  | y :: z :: ys, _ => simp [selectorList]

/-- **C49** is violated: a set of selectors of which none falls into the last bucket of the table
makes `toStylesheet` write outside its buffer (unless all selectors are empty). -/
theorem C49_counterexample (E : Env) {sels : List Bytes} (hn : ∃ x ∈ sels, x ≠ [])
    (h : ∀ x ∈ sels, E.hash x % 1000 ≠ 999) : stylesheetOf E sels = .ub .oobWrite := by
  obtain ⟨h1, h2⟩ := cosmetic_buckets E sels
  unfold stylesheetOf
  rw [C49_exact _ 999 h1, if_neg]
  intro hall
  obtain ⟨x, hx, hne⟩ := hn
  have := hall (E.hash x % 1000) (by have := Nat.mod_lt (E.hash x) (show 0 < 1000 by decide); omega)
  rw [h2 999, bucket_none E h] at this
  simp only [selectorList, List.length_nil, Nat.le_zero, List.length_eq_zero_iff] at this
  refine selectorList_ne ⟨x, ?_, hne⟩ this
  rw [h2]
  have mono : ∀ (l acc : List Bytes) (i : Nat), x ∈ acc ∨ (x ∈ l ∧ E.hash x % 1000 = i) →
      x ∈ l.foldl (fun l x => if E.hash x % 1000 = i then if l.contains x then l else l ++ [x] else l) acc := by
    intro l
    induction l with
    | nil => rintro acc i (h | ⟨h, _⟩); exact h; cases h
    | cons y l ih =>
      intro acc i h
      simp only [List.foldl_cons]
      apply ih
      rcases h with h | ⟨h, hi⟩
      · left
        split
        · split
          · exact h
          · simp [h]
        · exact h
      · rcases List.mem_cons.1 h with rfl | h
        · left
          rw [if_pos hi]
          split
          · rename_i hc; simpa using hc
          · simp
        · exact .inr ⟨h, hi⟩
  exact mono sels [] _ (.inr ⟨hx, rfl⟩)

/-- Both cases occur with the hash of the sample environment; "#lag" and ".sbl" fall into the
last bucket. -/
example : stylesheetOf toyEnv [bs%"#ad", bs%".banner"] = .ub .oobWrite :=
  C49_counterexample toyEnv (by decide) (by decide)

example : stylesheetOf toyEnv [bs%"#lag", bs%".sbl", bs%"#lag"] = .ok bs%"#lag, .sbl" :=
  C49_partial toyEnv (by decide)

end AdBlock
