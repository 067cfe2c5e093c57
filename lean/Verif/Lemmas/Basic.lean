import Verif.Model.Filter
import Verif.Spec
/-! Helper lemmas: bytes, memory, separators, hosts. -/
namespace AdBlock
open Spec

theorem byte_forall {P : Byte → Prop} (h : ∀ n : Fin 256, P (UInt8.ofFin n)) : ∀ c, P c := by
  intro c
  have := h c.toFin
  simpa using this

theorem isSeparatorChar_iff (c : Byte) : isSeparatorChar c = true ↔ IsSep c := by
  revert c
  apply byte_forall
  unfold IsSep separators
  decide +kernel

theorem isSeparatorChar_zero : isSeparatorChar 0 = false := by decide

/-! #### memory -/

@[simp] theorem rd_cons_zero (c : Byte) (p : Ptr) : rd (c :: p) 0 = .ok c := rfl
@[simp] theorem rd_cons_succ (c : Byte) (p : Ptr) (i : Nat) : rd (c :: p) (i + 1) = rd p i := rfl
@[simp] theorem rd_nil (i : Nat) : rd [] i = .ub .oobRead := by simp [rd]

theorem rd_append_left {p q : Ptr} {i : Nat} (h : i < p.length) :
    rd (p ++ q) i = .ok (p[i]) := by
  simp [rd, List.getElem?_append_left h, List.getElem?_eq_getElem h]

theorem rd_append_length {p : Ptr} {c : Byte} {q : Ptr} : rd (p ++ c :: q) p.length = .ok c := by
  simp [rd]

theorem strlen_cstr {s : Bytes} (h : 0 ∉ s) (q : Ptr) : strlen (s ++ 0 :: q) = .ok s.length := by
  induction s with
  | nil => simp [strlen]
  | cons c s ih =>
    have hc : c ≠ 0 := fun e => h (by simp [e])
    have hs : 0 ∉ s := fun e => h (by simp [e])
    simp [strlen, hc, ih hs]

theorem cstrAt_cstr {s : Bytes} (h : 0 ∉ s) (q : Ptr) : cstrAt (s ++ 0 :: q) = .ok s := by
  induction s with
  | nil => simp [cstrAt]
  | cons c s ih =>
    have hc : c ≠ 0 := fun e => h (by simp [e])
    have hs : 0 ∉ s := fun e => h (by simp [e])
    simp [cstrAt, hc, ih hs]

theorem strcmpEq_cstr {s t : Bytes} (hs : 0 ∉ s) (ht : 0 ∉ t) (q r : Ptr) :
    strcmpEq (s ++ 0 :: q) (t ++ 0 :: r) = .ok (s == t) := by
  induction s generalizing t with
  | nil =>
    cases t with
    | nil => simp [strcmpEq]
    | cons d t =>
      have hd : d ≠ 0 := fun e => ht (by simp [e])
      simp [strcmpEq, hd.symm]
  | cons c s ih =>
    have hc : c ≠ 0 := fun e => hs (by simp [e])
    have hs' : 0 ∉ s := fun e => hs (by simp [e])
    cases t with
    | nil => simp [strcmpEq, hc]
    | cons d t =>
      have ht' : 0 ∉ t := fun e => ht (by simp [e])
      by_cases hcd : c = d
      · subst hcd; simp [strcmpEq, hc, ih hs' ht']
      · simp [strcmpEq, hcd]

theorem strncmpPtrEq_cstr {s t : Bytes} (hs : 0 ∉ s) (ht : 0 ∉ t) (q r : Ptr) :
    strncmpPtrEq (s ++ q) (t ++ 0 :: r) s.length = .ok (s.isPrefixOf t) := by
  induction s generalizing t with
  | nil => simp [strncmpPtrEq]
  | cons c s ih =>
    have hc : c ≠ 0 := fun e => hs (by simp [e])
    have hs' : 0 ∉ s := fun e => hs (by simp [e])
    cases t with
    | nil => simp [strncmpPtrEq, hc]
    | cons d t =>
      have ht' : 0 ∉ t := fun e => ht (by simp [e])
      by_cases hcd : c = d
      · subst hcd; simp [strncmpPtrEq, hc, ih hs' ht']
      · simp [strncmpPtrEq, hcd, List.isPrefixOf]

/-! #### hosts -/

theorem endsWith_iff (input sub : Bytes) : endsWith input sub = true ↔ sub <:+ input := by
  unfold endsWith
  split
  · rename_i h
    simp only [Bool.false_eq_true, false_iff]
    intro hs
    have := hs.length_le
    omega
  · rename_i h
    simp only [beq_iff_eq]
    constructor
    · intro e; rw [← e]; exact List.drop_suffix ..
    · rintro ⟨pre, rfl⟩
      simp

theorem isThirdPartyHost_eq_false_iff (base test : Bytes) :
    isThirdPartyHost base test = false ↔ SameSite base test := by
  unfold isThirdPartyHost SameSite
  by_cases h : endsWith test base = true
  · simp only [h, Bool.not_true, Bool.false_eq_true, ↓reduceIte]
    rw [endsWith_iff] at h
    obtain ⟨pre, rfl⟩ := h
    rcases List.eq_nil_or_concat pre with rfl | ⟨pre', c, hpre⟩
    · simp
    · rw [List.concat_eq_append] at hpre
      subst hpre
      have h1 : ¬ (((pre' ++ [c]) ++ base).length = base.length) := by simp; omega
      have h2 : ((pre' ++ [c]) ++ base).length - base.length - 1 = pre'.length := by simp; omega
      rw [if_neg h1, h2]
      have h3 : ((pre' ++ [c]) ++ base).getD pre'.length 0 = c := by simp
      rw [h3]
      have h4 : (pre' ++ [c]) ++ base ≠ base := by
        intro e; exact h1 (congrArg List.length e)
      simp only [bne_eq_false_iff_eq, Bool.and_eq_false_iff]
      constructor
      · rintro (rfl | e)
        · right; exact ⟨pre', by simp⟩
        · exact absurd e h1
      · rintro (e | ⟨sub, e⟩)
        · exact absurd e h4
        · left
          have : (pre' ++ [c]) = sub ++ [ch%'.'] := by
            have e' : (pre' ++ [c]) ++ base = (sub ++ [ch%'.']) ++ base := by simpa using e
            exact List.append_cancel_right e'
          have := List.append_inj_right' this rfl
          simpa using this
  · have h' : ¬ base <:+ test := by rwa [endsWith_iff] at h
    simp only [h, Bool.not_false, ↓reduceIte, Bool.true_eq_false, false_iff]
    rintro (rfl | ⟨sub, rfl⟩)
    · exact h' List.suffix_rfl
    · exact h' ⟨sub ++ [ch%'.'], by simp⟩

theorem findFirstSeparatorChar_spec {host rest : Bytes} (hh : ∀ c ∈ host, ¬ IsSep c)
    (hr : rest = [] ∨ ∃ c r, rest = c :: r ∧ IsSep c) :
    findFirstSeparatorChar (host ++ rest) = host.length := by
  induction host with
  | nil =>
    rcases hr with rfl | ⟨c, r, rfl, hc⟩
    · rfl
    · simp [findFirstSeparatorChar, (isSeparatorChar_iff c).2 hc]
  | cons c host ih =>
    have hc : isSeparatorChar c = false := by
      rw [← Bool.not_eq_true, isSeparatorChar_iff]; exact hh c (by simp)
    simp [findFirstSeparatorChar, hc, ih (fun d hd => hh d (by simp [hd]))]

theorem findFirstSeparatorChar_le (s : Bytes) : findFirstSeparatorChar s ≤ s.length := by
  induction s with
  | nil => simp [findFirstSeparatorChar]
  | cons c s ih => simp only [findFirstSeparatorChar]; split <;> simp; omega

/-- the text before the first separator contains none -/
theorem not_sep_of_mem_take (s : Bytes) : ∀ c ∈ s.take (findFirstSeparatorChar s), ¬ IsSep c := by
  induction s with
  | nil => simp
  | cons c s ih =>
    simp only [findFirstSeparatorChar]
    split
    · simp
    · rename_i h
      rw [isSeparatorChar_iff] at h
      simp only [List.take_succ_cons, List.mem_cons]
      rintro d (rfl | hd)
      · exact h
      · exact ih d hd

/-- and what follows is empty or starts with a separator -/
theorem drop_findFirstSeparatorChar (s : Bytes) :
    s.drop (findFirstSeparatorChar s) = [] ∨
      ∃ c r, s.drop (findFirstSeparatorChar s) = c :: r ∧ IsSep c := by
  induction s with
  | nil => simp
  | cons c s ih =>
    simp only [findFirstSeparatorChar]
    split
    · rename_i h
      rw [isSeparatorChar_iff] at h
      right; exact ⟨c, s, by simp, h⟩
    · simpa using ih

theorem getUrlHost_spec {scheme slashes host rest : Bytes}
    (hs : ch%':' ∉ scheme) (hsl : ∀ c ∈ slashes, c = ch%'/')
    (hne : ∀ h, host.head? = some h → h ≠ ch%'/')
    (hne' : host ≠ []) (hh : ∀ c ∈ host, ¬ IsSep c)
    (hr : rest = [] ∨ ∃ c r, rest = c :: r ∧ IsSep c) :
    getUrlHost (scheme ++ ch%':' :: slashes ++ host ++ rest) = host := by
  have h1 : hostStart (scheme ++ ch%':' :: slashes ++ host ++ rest) = host ++ rest := by
    induction scheme with
    | nil =>
      simp only [List.nil_append, List.cons_append, hostStart, ↓reduceIte]
      clear hs
      induction slashes with
      | nil =>
        cases host with
        | nil => exact absurd rfl hne'
        | cons a host =>
          have := hne a rfl
          simp [this]
      | cons a sl ih =>
        have ha : a = ch%'/' := hsl a (by simp)
        subst ha
        simpa [List.dropWhile] using ih (fun c hc => hsl c (by simp [hc]))
    | cons a scheme ih =>
      have ha : a ≠ ch%':' := fun e => hs (by simp [e])
      simp only [List.cons_append, hostStart, ha, ↓reduceIte]
      simpa using ih (fun e => hs (by simp [e]))
  simp only [getUrlHost, h1, findFirstSeparatorChar_spec hh hr]
  simp

end AdBlock
