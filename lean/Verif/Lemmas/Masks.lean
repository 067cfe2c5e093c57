import Verif.Model.Filter
/-! Helper lemmas on bit masks. -/
namespace AdBlock

theorem has_iff (x m : Mask) : has x m = true ↔ ∃ i, x.getLsbD i = true ∧ m.getLsbD i = true := by
  unfold has
  rw [bne_iff_ne, ne_eq]
  constructor
  · intro h
    by_cases hn : ∃ i, x.getLsbD i = true ∧ m.getLsbD i = true
    · exact hn
    · exfalso
      apply h
      apply BitVec.eq_of_getLsbD_eq
      intro i _
      rw [BitVec.getLsbD_and]
      have : ¬ (x.getLsbD i = true ∧ m.getLsbD i = true) := fun e => hn ⟨i, e⟩
      rw [← Bool.and_eq_true] at this
      simpa using this
  · rintro ⟨i, h1, h2⟩ h
    have := congrArg (fun v => BitVec.getLsbD v i) h
    simp [h1, h2] at this

theorem has_comm (x m : Mask) : has x m = has m x := by
  unfold has; rw [BitVec.and_comm]

@[simp] theorem has_zero_left (m : Mask) : has 0#32 m = false := by simp [has]

@[simp] theorem has_zero_right (m : Mask) : has m 0#32 = false := by simp [has]

theorem has_or_left (x y m : Mask) : has (x ||| y) m = (has x m || has y m) := by
  rw [Bool.eq_iff_iff, Bool.or_eq_true, has_iff, has_iff, has_iff]
  constructor
  · rintro ⟨i, h1, h2⟩
    rw [BitVec.getLsbD_or, Bool.or_eq_true] at h1
    rcases h1 with h1 | h1
    · exact .inl ⟨i, h1, h2⟩
    · exact .inr ⟨i, h1, h2⟩
  · rintro (⟨i, h1, h2⟩ | ⟨i, h1, h2⟩)
    · exact ⟨i, by simp [h1], h2⟩
    · exact ⟨i, by simp [h1], h2⟩

theorem has_or_right (x y m : Mask) : has m (x ||| y) = (has m x || has m y) := by
  rw [has_comm, has_or_left, has_comm x, has_comm y]

theorem has_and_assoc (x y m : Mask) : has (x &&& y) m = has x (y &&& m) := by
  unfold has; rw [BitVec.and_assoc]

/-- if every bit of `m` is in `m'`, having `m` implies having `m'` -/
theorem has_mono {x m m' : Mask} (hm : m &&& m' = m) (h : has x m = true) : has x m' = true := by
  rw [has_iff] at h ⊢
  obtain ⟨i, h1, h2⟩ := h
  rw [← hm, BitVec.getLsbD_and, Bool.and_eq_true] at h2
  exact ⟨i, h1, h2.2⟩

theorem and_ne_zero_iff (x m : Mask) : x &&& m ≠ 0#32 ↔ has x m = true := by simp [has]

theorem and_eq_zero_iff (x m : Mask) : x &&& m = 0#32 ↔ has x m = false := by simp [has]

end AdBlock
