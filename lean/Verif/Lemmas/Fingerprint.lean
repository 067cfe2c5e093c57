import Verif.Lemmas.Pattern
import Verif.Model.ParseFilter
/-! Helper lemmas on fingerprints. -/
namespace AdBlock
open Spec

theorem isFingerprintChar_iff (c : Byte) :
    isFingerprintChar c = true ↔ c ≠ ch%'|' ∧ c ≠ ch%'*' ∧ c ≠ ch%'^' := by
  revert c
  apply byte_forall
  decide +kernel

theorem strstr_spec (sub s : Bytes) :
    match strstr sub s with
    | some off => sub <+: s.drop off ∧ ∀ k, sub <+: s.drop k → off ≤ k
    | none => ¬ sub <:+: s := by
  induction s with
  | nil =>
    by_cases h : sub = []
    · subst h; simp [strstr]
    · simp only [strstr, h, ↓reduceIte]
      intro hi
      exact h (by simpa using hi)
  | cons c s ih =>
    simp only [strstr]
    by_cases hp : sub.isPrefixOf (c :: s) = true
    · simp only [hp, ↓reduceIte]
      exact ⟨by simpa using hp, by simp⟩
    · simp only [hp, Bool.false_eq_true, ↓reduceIte]
      have hp' : ¬ sub <+: c :: s := by simpa using hp
      cases hs : strstr sub s with
      | none =>
        rw [hs] at ih
        simp only [Option.map_eq_map, Option.map_none]
        rw [List.infix_cons_iff]
        rintro (h | h)
        · exact hp' h
        · exact ih h
      | some off =>
        rw [hs] at ih
        simp only [Option.map_eq_map, Option.map_some]
        refine ⟨ih.1, ?_⟩
        intro k hk
        cases k with
        | zero => exact absurd hk hp'
        | succ k => have := ih.2 k hk; omega

theorem infix_take_iff {sub s : Bytes} {n : Nat} :
    sub <:+: s.take n ↔ ∃ k, sub <+: s.drop k ∧ (k + sub.length ≤ n ∨ sub = []) := by
  constructor
  · rintro ⟨a, b, h⟩
    refine ⟨a.length, ?_, .inl ?_⟩
    · have h1 : s = a ++ (sub ++ (b ++ s.drop n)) := by
        conv => lhs; rw [← List.take_append_drop n s, ← h]
        simp
      rw [h1]; simp
    · have := congrArg List.length h
      simp at this; omega
  · rintro ⟨k, ⟨r, hr⟩, h | h⟩
    · have h1 : (s.take n).drop k = (s.drop k).take (n - k) := by rw [List.drop_take]
      have h2 : sub <+: (s.take n).drop k := by
        rw [h1, ← hr, List.take_append, List.take_of_length_le (by omega)]
        exact ⟨_, rfl⟩
      exact h2.isInfix.trans (List.drop_suffix _ _).isInfix
    · subst h; exact List.nil_infix

theorem hasBadSubstring_iff (s : Bytes) (n : Nat) :
    hasBadSubstring s n = true ↔ bs%"http" <:+: s.take n ∨ bs%"www" <:+: s.take n := by
  have one : ∀ sub : Bytes, sub ≠ [] →
      ((match strstr sub s with | some off => decide (off + sub.length ≤ n) | none => false) = true ↔
        sub <:+: s.take n) := by
    intro sub hne
    have spec := strstr_spec sub s
    rw [infix_take_iff]
    cases h : strstr sub s with
    | none =>
      rw [h] at spec
      simp only [Bool.false_eq_true, false_iff]
      rintro ⟨k, hk, _⟩
      exact spec (hk.isInfix.trans (List.drop_suffix _ _).isInfix)
    | some off =>
      rw [h] at spec
      simp only [decide_eq_true_eq]
      constructor
      · intro hl; exact ⟨off, spec.1, .inl hl⟩
      · rintro ⟨k, hk, hl | hl⟩
        · have := spec.2 k hk; omega
        · exact absurd hl hne
  unfold hasBadSubstring badSubstrings
  simp only [List.any_cons, List.any_nil, Bool.or_false, Bool.or_eq_true]
  exact or_congr (one _ (by simp)) (one _ (by simp))

theorem isBadFingerprint_iff (bad : List Bytes) (s : Bytes) (n : Nat) (h : n ≤ s.length) :
    isBadFingerprint bad s n = true ↔ ∃ bf ∈ bad, s.take n <+: bf := by
  unfold isBadFingerprint strncmpEq
  simp only [List.any_eq_true, beq_iff_eq]
  constructor
  · rintro ⟨bf, h1, h2⟩
    exact ⟨bf, h1, by rw [← h2]; exact List.take_prefix _ _⟩
  · rintro ⟨bf, h1, r, h2⟩
    refine ⟨bf, h1, ?_⟩
    rw [← h2]
    have hl : (s.take n).length = n := by simp; omega
    rw [List.take_append_of_le_length (by omega)]
    rw [List.take_of_length_le (by omega)]

/-- what a run of the loop from one start position tells -/
theorem fpRun_spec (bad : List Bytes) (s : Bytes) :
    ∀ (todo : Nat) (rest : Bytes) (size : Nat), s.drop size = rest → size ≤ s.length → todo + size = 6 → 0 < todo →
      (∀ c ∈ s.take size, isFingerprintChar c = true) →
      match fpRun bad s todo rest size with
      | .atEnd => s.length < 6
      | .nonFpChar k => k < 6 ∧ ∃ c, s[k]? = some c ∧ isFingerprintChar c = false
      | .bump => s ≠ [] ∧ ¬ UsableFingerprint bad (s.take 6)
      | .found => UsableFingerprint bad (s.take 6) := by
  intro todo
  induction todo with
  | zero => intros; omega
  | succ todo ih =>
    intro rest size hrest hsize htot _ hfp
    cases rest with
    | nil =>
      simp only [fpRun]
      have := List.drop_eq_nil_iff.1 hrest
      omega
    | cons c rest =>
      have hlt : size < s.length := by
        have := congrArg List.length hrest
        simp at this; omega
      have hc : s[size]? = some c := by
        have := congrArg List.head? hrest
        simpa using this
      have htake : s.take (size + 1) = s.take size ++ [c] := by
        rw [List.take_add_one, hc]; rfl
      have hrest' : s.drop (size + 1) = rest := by
        rw [← List.drop_drop, hrest]; rfl
      simp only [fpRun]
      by_cases hcf : isFingerprintChar c = true
      · have hfp' : ∀ x ∈ s.take (size + 1), isFingerprintChar x = true := by
          rw [htake]; intro x hx
          rcases List.mem_append.1 hx with hx | hx
          · exact hfp x hx
          · simp at hx; rw [hx]; exact hcf
        simp only [hcf, Bool.not_true, Bool.false_eq_true, ↓reduceIte]
        by_cases hb : hasBadSubstring s (size + 1) = true
        · simp only [hb, ↓reduceIte]
          refine ⟨by rintro rfl; simp at hlt, ?_⟩
          rintro ⟨_, _, h1, h2, _⟩
          have hpre : s.take (size + 1) <+: s.take 6 := by
            have : s.take (size + 1) = (s.take 6).take (size + 1) := by
              rw [List.take_take, Nat.min_eq_left (by omega)]
            rw [this]; exact List.take_prefix _ _
          rcases (hasBadSubstring_iff _ _).1 hb with h | h
          · exact h1 (h.trans hpre.isInfix)
          · exact h2 (h.trans hpre.isInfix)
        · simp only [hb, Bool.false_eq_true, ↓reduceIte]
          by_cases ht : todo = 0
          · subst ht
            have hs5 : size = 5 := by omega
            subst hs5
            simp only [↓reduceIte]
            by_cases hbf : isBadFingerprint bad s 6 = true
            · simp only [hbf, ↓reduceIte]
              refine ⟨by rintro rfl; simp at hlt, ?_⟩
              rintro ⟨_, _, _, _, h⟩
              obtain ⟨bf, h1, h2⟩ := (isBadFingerprint_iff bad s 6 (by omega)).1 hbf
              exact h bf h1 h2
            · simp only [hbf, Bool.false_eq_true, ↓reduceIte]
              rw [hasBadSubstring_iff, not_or] at hb
              refine ⟨by simp; omega, ?_, hb.1, hb.2, ?_⟩
              · intro x hx; exact (isFingerprintChar_iff x).1 (hfp' x hx)
              · intro bf h1 h2
                exact hbf ((isBadFingerprint_iff bad s 6 (by omega)).2 ⟨bf, h1, h2⟩)
          · simp only [ht, ↓reduceIte]
            exact ih rest (size + 1) hrest' (by omega) (by omega) (by omega) hfp'
      · simp only [hcf, Bool.not_false, ↓reduceIte]
        exact ⟨by omega, c, hc, by simpa using hcf⟩

/-- windows of a suffix that miss none of the usable ones -/
theorem leftmost_shift {bad : List Bytes} {s w : Bytes} {n : Nat} (hn : n ≤ s.length)
    (hskip : ∀ pre w' post, s = pre ++ w' ++ post → UsableFingerprint bad w' → n ≤ pre.length)
    (h : LeftmostFingerprint bad (s.drop n) w) : LeftmostFingerprint bad s w := by
  obtain ⟨hu, pre, post, he, hl⟩ := h
  refine ⟨hu, s.take n ++ pre, post, ?_, ?_⟩
  · conv => lhs; rw [← List.take_append_drop n s, he]
    simp
  · intro pre' w' post' he' hu'
    have h1 := hskip pre' w' post' he' hu'
    have h2 : s.drop n = pre'.drop n ++ w' ++ post' := by
      rw [he', List.append_assoc, List.drop_append_of_le_length h1, List.append_assoc]
    have := hl _ _ _ h2 hu'
    simp at this ⊢
    omega

theorem fpLoop_spec (bad : List Bytes) (fuel : Nat) (s : Bytes) (hf : s.length < fuel) :
    match fpLoop bad fuel s with
    | some w => LeftmostFingerprint bad s w
    | none => ∀ w, w <:+: s → ¬ UsableFingerprint bad w := by
  induction fuel generalizing s with
  | zero => omega
  | succ fuel ih =>
    have run := fpRun_spec bad s 6 s 0 rfl (by omega) (by omega) (by omega) (by simp)
    simp only [fpLoop, kFingerprintSize]
    -- going on from a later start without missing anything
    have cont : ∀ n, 0 < n → n ≤ s.length →
        (∀ pre w' post, s = pre ++ w' ++ post → UsableFingerprint bad w' → n ≤ pre.length) →
        match fpLoop bad fuel (s.drop n) with
        | some w => LeftmostFingerprint bad s w
        | none => ∀ w, w <:+: s → ¬ UsableFingerprint bad w := by
      intro n h0 hn hskip
      have ih' := ih (s.drop n) (by simp; omega)
      cases hl : fpLoop bad fuel (s.drop n) with
      | some w => rw [hl] at ih'; exact leftmost_shift hn hskip ih'
      | none =>
        rw [hl] at ih'
        rintro w ⟨pre, post, he⟩ hu
        have h1 := hskip pre w post he.symm hu
        refine ih' w ⟨pre.drop n, post, ?_⟩ hu
        rw [← he, List.append_assoc, List.append_assoc, List.drop_append_of_le_length h1]
    cases hr : fpRun bad s 6 s 0 with
    | atEnd =>
      rw [hr] at run
      intro w hw hu
      have := hw.length_le
      have := hu.1
      simp only at run
      omega
    | nonFpChar k =>
      rw [hr] at run
      obtain ⟨hk, c, hc, hcf⟩ := run
      have hkl : k < s.length := by
        have := List.getElem?_eq_some_iff.1 hc
        exact this.1
      refine cont (k + 1) (by omega) (by omega) ?_
      intro pre w' post he hu
      apply Decidable.byContradiction
      intro hlt
      -- the window contains position k
      have hmem : c ∈ w' := by
        have h6 := hu.1
        rw [he, List.append_assoc, List.getElem?_append_right (by omega),
          List.getElem?_append_left (by omega)] at hc
        exact List.mem_of_getElem? hc
      rw [(isFingerprintChar_iff c).2 (hu.2.1 c hmem)] at hcf
      simp at hcf
    | bump =>
      rw [hr] at run
      have hpos : 0 < s.length := by
        cases s with
        | nil => exact absurd rfl run.1
        | cons => simp
      refine cont 1 (by omega) (by omega) ?_
      intro pre w' post he hu
      apply Decidable.byContradiction
      intro hlt
      have hpre : pre = [] := by cases pre <;> simp at hlt ⊢
      subst hpre
      apply run.2
      rw [he]
      have : (([] : Bytes) ++ w' ++ post).take 6 = w' := by
        rw [List.nil_append, ← hu.1]; simp
      rw [this]; exact hu
    | found =>
      rw [hr] at run
      simp only at run ⊢
      refine ⟨run, [], s.drop 6, by simp, by simp⟩

theorem getFingerprintStr_spec (bad : List Bytes) (s : Bytes) :
    match getFingerprintStr bad s with
    | some w => LeftmostFingerprint bad s w
    | none => ∀ w, w <:+: s → ¬ UsableFingerprint bad w :=
  fpLoop_spec bad _ s (by omega)

/-- a fingerprint lies inside one part of the pattern -/
theorem infix_part {sep : Byte} {d w : Bytes} (h : w <:+: d) (hw : sep ∉ w) :
    ∃ p ∈ splitOn sep d, w <:+: p := by
  induction d with
  | nil => exact ⟨[], by simp [splitOn], h⟩
  | cons c d ih =>
    obtain ⟨q, qs, hq⟩ := List.exists_cons_of_ne_nil (splitOn_ne_nil sep d)
    rw [List.infix_cons_iff] at h
    by_cases hs : c = sep
    · subst hs
      rw [splitOn_cons_sep]
      rcases h with h | h
      · obtain ⟨r, hr⟩ := h
        cases w with
        | nil => exact ⟨[], by simp, List.nil_infix⟩
        | cons x w =>
          simp only [List.cons_append, List.cons.injEq] at hr
          exact absurd (by simp [hr.1]) hw
      · obtain ⟨p, hp, hwp⟩ := ih h
        exact ⟨p, by simp [hp], hwp⟩
    · rw [splitOn_cons_of_ne hs hq]
      rcases h with h | h
      · -- prefix of c :: d, all within the first part
        refine ⟨c :: q, by simp, ?_⟩
        rcases (splitOn_decomp hq).2 with ⟨_, rfl⟩ | ⟨d', rfl, _⟩
        · exact h.isInfix
        · obtain ⟨r, hr⟩ := h
          rcases List.append_eq_append_iff.1 (show w ++ r = (c :: q) ++ sep :: d' by simpa using hr) with ⟨x, h1, _⟩ | ⟨x, h1, h2⟩
          · exact ⟨[], x, by simp [h1]⟩
          · cases x with
            | nil => exact ⟨[], [], by simp [h1]⟩
            | cons y x =>
              simp only [List.cons_append, List.cons.injEq] at h2
              exact absurd (by rw [h1]; simp [h2.1]) hw
      · obtain ⟨p, hp, hwp⟩ := ih h
        rw [hq] at hp
        rcases List.mem_cons.1 hp with rfl | hp
        · exact ⟨c :: p, by simp, hwp.trans (List.suffix_cons c p).isInfix⟩
        · exact ⟨p, by simp [hp], hwp⟩

theorem prefix_of_partAt {w x u : Bytes} (hc : ch%'^' ∉ w) (h : PartAt (w ++ x) u) : w <+: u := by
  induction w generalizing u with
  | nil => exact List.nil_prefix
  | cons c w ih =>
    have hcc : c ≠ ch%'^' := fun e => hc (by simp [e])
    cases u with
    | nil => simp [PartAt, hcc] at h
    | cons d u =>
      simp only [List.cons_append, PartAt, hcc, false_and, or_false] at h
      rw [h.1]
      have := ih (fun e => hc (by simp [e])) h.2
      simpa using this

theorem infix_of_partAt {w p u : Bytes} (hc : ch%'^' ∉ w) (hw : w <:+: p) (h : PartAt p u) : w <:+: u := by
  obtain ⟨a, b, rfl⟩ := hw
  induction a generalizing u with
  | nil => exact (prefix_of_partAt hc (by simpa using h)).isInfix
  | cons c a ih =>
    cases u with
    | nil =>
      simp only [List.cons_append, PartAt] at h
      have : w = [] := by
        have := h.2
        simp at this; exact this.2.1
      subst this; exact List.nil_infix
    | cons d u =>
      simp only [List.cons_append, PartAt] at h
      exact (ih h.2).trans (List.suffix_cons d u).isInfix

theorem infix_of_placedParts {w : Bytes} {ps : List Bytes} {u : Bytes} (hc : ch%'^' ∉ w)
    {p : Bytes} (hp : p ∈ ps) (hw : w <:+: p) (h : PlacedParts ps u) : w <:+: u := by
  induction ps generalizing u with
  | nil => simp at hp
  | cons q ps ih =>
    rcases h with ⟨rfl, rfl⟩ | ⟨_, _, k, _, h4, h5⟩
    · simp at hp; subst hp
      have : w = [] := by simpa using hw
      subst this; exact List.nil_infix
    · rcases List.mem_cons.1 hp with rfl | hp
      · exact (infix_of_partAt hc hw h4).trans (List.drop_suffix _ _).isInfix
      · exact (ih hp h5).trans (List.drop_suffix _ _).isInfix

end AdBlock
