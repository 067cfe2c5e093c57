import Verif.Model.Serialize
import Verif.Lemmas.Basic
/-! Helper lemmas: hexadecimal numbers. -/
namespace AdBlock

theorem hexVal_digit : ∀ d, d < 16 → hexVal (hexDigit d) = some d := by decide

theorem digit_clean : ∀ d, d < 16 → isSpace (hexDigit d) = false ∧ hexDigit d ≠ ch%'-' ∧ hexDigit d ≠ ch%'+' ∧
    hexDigit d ≠ ch%'x' ∧ hexDigit d ≠ ch%'X' ∧ hexDigit d ≠ 0 ∧ hexDigit d ≠ ch%',' ∧
    (hexDigit d = ch%'0' → d = 0) := by decide

/-- The digits of a number, most significant first. -/
def Digits (s : Bytes) (n : Nat) : Prop := ∀ acc rest, scanDigits acc (s ++ rest) =
  scanDigits (acc * 16 ^ s.length + n) rest

theorem hexDigits_scan (k n : Nat) (h : n < 16 ^ k) (acc : Nat) (rest : Bytes) :
    scanDigits acc (hexDigits k n ++ rest) = scanDigits (acc * 16 ^ (hexDigits k n).length + n) rest := by
  induction k generalizing n acc rest with
  | zero =>
    simp at h
    simp [hexDigits, h]
  | succ k ih =>
    unfold hexDigits
    by_cases hn : n < 16
    · simp [hn, scanDigits, hexVal_digit n hn, Nat.mul_comm]
    · have h1 : n / 16 < 16 ^ k := by
        rw [Nat.div_lt_iff_lt_mul (by omega)]
        rw [Nat.pow_succ] at h
        omega
      have h2 : n % 16 < 16 := Nat.mod_lt _ (by omega)
      simp only [hn, if_false, List.append_assoc, List.length_append, List.length_singleton]
      rw [ih _ h1]
      simp only [List.cons_append, List.nil_append, scanDigits, hexVal_digit _ h2]
      congr 1
      rw [Nat.pow_succ, Nat.mul_add, Nat.mul_comm 16 (acc * _), Nat.mul_assoc]
      omega

theorem hexDigits_mem {k n : Nat} {c : Byte} (h : c ∈ hexDigits k n) : ∃ d, d < 16 ∧ c = hexDigit d := by
  induction k generalizing n with
  | zero => simp [hexDigits] at h
  | succ k ih =>
    unfold hexDigits at h
    split at h
    · exact ⟨n, by assumption, by simpa using h⟩
    · rcases List.mem_append.1 h with h | h
      · exact ih h
      · exact ⟨_, Nat.mod_lt _ (by omega), by simpa using h⟩

theorem hexDigits_length (k n : Nat) : (hexDigits k n).length ≤ k := by
  induction k generalizing n with
  | zero => simp [hexDigits]
  | succ k ih =>
    unfold hexDigits
    split
    · simp
    · simp
      exact ih _

theorem hexDigits_ne_nil (k n : Nat) : hexDigits (k + 1) n ≠ [] := by
  unfold hexDigits
  split <;> simp

/-- The first digit of a positive number is not 0. -/
theorem hexDigits_head (k n : Nat) (h0 : 0 < n) (h : n < 16 ^ k) : (hexDigits k n).head? ≠ some ch%'0' := by
  induction k generalizing n with
  | zero => simp at h; omega
  | succ k ih =>
    unfold hexDigits
    split
    · rename_i hn
      intro he
      have := (digit_clean n hn).2.2.2.2.2.2.2 (by simpa using he)
      omega
    · have h1 : n / 16 < 16 ^ k := by
        rw [Nat.div_lt_iff_lt_mul (by omega)]
        rw [Nat.pow_succ] at h
        omega
      have := ih (n / 16) (by omega) h1
      cases k with
      | zero => simp at h1; omega
      | succ k =>
        cases e : hexDigits (k + 1) (n / 16) with
        | nil => exact absurd e (hexDigits_ne_nil k _)
        | cons a l => rw [e] at this; simpa using this

theorem fmtX_length (v : BitVec 32) : (fmtX v).length ≤ 8 := hexDigits_length 8 _
theorem fmtX_ne_nil (v : BitVec 32) : fmtX v ≠ [] := hexDigits_ne_nil 7 _
theorem fmtX_mem {v : BitVec 32} {c : Byte} (h : c ∈ fmtX v) : ∃ d, d < 16 ∧ c = hexDigit d := hexDigits_mem h

theorem fmtX_no_zero (v : BitVec 32) : 0 ∉ fmtX v := by
  intro h
  obtain ⟨d, hd, e⟩ := fmtX_mem h
  exact (digit_clean d hd).2.2.2.2.2.1 e.symm

theorem fmtX_no_comma (v : BitVec 32) : ch%',' ∉ fmtX v := by
  intro h
  obtain ⟨d, hd, e⟩ := fmtX_mem h
  exact (digit_clean d hd).2.2.2.2.2.2.1 e.symm

theorem scanDigits_stop {acc : Nat} {rest : Bytes} (h : rest.head?.bind hexVal = none) :
    scanDigits acc rest = (acc, rest) := by
  cases rest with
  | nil => rfl
  | cons c s => simp at h; simp [scanDigits, h]

theorem fmtX_zero : fmtX 0 = bs%"0" := by decide

/-- `%x` reads back what `%x` has written, if no further digit follows (nor an `x` after 0). -/
theorem scanX_fmtX (v : BitVec 32) (rest : Bytes) (h : rest.head?.bind hexVal = none)
    (hx : v ≠ 0 ∨ (rest.head? ≠ some ch%'x' ∧ rest.head? ≠ some ch%'X')) :
    scanX (fmtX v ++ rest) = some (v, rest) := by
  have hs := hexDigits_scan 8 v.toNat (by have := v.isLt; omega) 0 rest
  have hv := v.isLt
  unfold scanX
  cases e : fmtX v with
  | nil => exact absurd e (fmtX_ne_nil v)
  | cons a s =>
    have hs' : scanDigits 0 (a :: (s ++ rest)) = (v.toNat, rest) := by
      rw [show hexDigits 8 v.toNat = a :: s from e] at hs
      rw [show a :: (s ++ rest) = a :: s ++ rest from rfl, hs, Nat.zero_mul, Nat.zero_add, scanDigits_stop h]
    obtain ⟨d, hd, rfl⟩ := fmtX_mem (c := a) (v := v) (by rw [e]; simp)
    obtain ⟨c1, c2, c3, c4, c5, c6, c7, c8⟩ := digit_clean d hd
    have hpre : scanPrefix (hexDigit d :: (s ++ rest)) = hexDigit d :: (s ++ rest) := by
      cases s with
      | cons b s =>
        obtain ⟨d', hd', rfl⟩ := fmtX_mem (c := b) (v := v) (by rw [e]; simp)
        obtain ⟨_, _, _, e4, e5, _⟩ := digit_clean d' hd'
        simp [scanPrefix, e4, e5]
      | nil =>
        cases rest with
        | nil => rfl
        | cons b rest =>
          simp only [List.nil_append, scanPrefix]
          rw [if_neg]
          rintro ⟨h1, h2⟩
          have := c8 h1
          subst this
          rcases hx with hx | hx
          · have := hexDigits_head 8 v.toNat (by
              rcases Nat.eq_zero_or_pos v.toNat with hz | hz
              · exact absurd (BitVec.eq_of_toNat_eq (by simpa using hz)) hx
              · exact hz) (by omega)
            rw [show hexDigits 8 v.toNat = hexDigit 0 :: [] from e] at this
            exact this rfl
          · simp at hx; exact h2.elim hx.1 hx.2
    simp only [List.cons_append, List.dropWhile_cons, c1, Bool.false_eq_true, if_false, scanSign, c2, c3, hpre]
    simp only [List.head?_cons, Option.bind_some, hexVal_digit d hd, Option.isSome_some, if_true, hs']
    rw [if_neg (by omega)]
    simp

theorem fmtXs_cons (v w : BitVec 32) (vs : List (BitVec 32)) :
    fmtXs (v :: w :: vs) = fmtX v ++ ch%',' :: fmtXs (w :: vs) := rfl

/-- `sscanf` reads back what `snprintf` has written. -/
theorem scanXs_fmtXs (vs ds : List (BitVec 32)) (h : ds.length = vs.length) : scanXs ds (fmtXs vs) = vs := by
  induction vs generalizing ds with
  | nil => simp at h; simp [h, scanXs]
  | cons v vs ih =>
    cases ds with
    | nil => simp at h
    | cons d ds =>
      cases vs with
      | nil =>
        simp at h
        subst h
        have := scanX_fmtX v [] rfl (.inr (by simp))
        rw [List.append_nil] at this
        simp [scanXs, fmtXs, this]
      | cons w vs =>
        rw [fmtXs_cons]
        have := scanX_fmtX v (ch%',' :: fmtXs (w :: vs)) (show hexVal ch%',' = none by decide) (.inr (by simp))
        simp only [scanXs, this, List.head?_cons, List.drop_succ_cons, List.drop_zero, if_true]
        rw [ih ds (by simpa using h)]

theorem fmtXs_no_zero (vs : List (BitVec 32)) : 0 ∉ fmtXs vs := by
  induction vs with
  | nil => simp [fmtXs]
  | cons v vs ih =>
    cases vs with
    | nil => simpa [fmtXs] using fmtX_no_zero v
    | cons w vs =>
      rw [fmtXs_cons]
      simp only [List.mem_append, List.mem_cons, not_or]
      exact ⟨fmtX_no_zero v, by decide, ih⟩

theorem fmtXs_length (vs : List (BitVec 32)) : (fmtXs vs).length ≤ 9 * vs.length := by
  induction vs with
  | nil => simp [fmtXs]
  | cons v vs ih =>
    have := fmtX_length v
    cases vs with
    | nil => simp [fmtXs]; omega
    | cons w vs =>
      rw [fmtXs_cons]
      simp at *
      omega

theorem fmtXs_ne_nil (v : BitVec 32) (vs : List (BitVec 32)) : fmtXs (v :: vs) ≠ [] := by
  cases vs with
  | nil => simpa [fmtXs] using fmtX_ne_nil v
  | cons w vs => rw [fmtXs_cons]; simp

theorem fmtXs_take {vs : List (BitVec 32)} {n : Nat} (h : 9 * vs.length ≤ n) : (fmtXs vs).take n = fmtXs vs :=
  List.take_of_length_le (Nat.le_trans (fmtXs_length vs) h)

end AdBlock
