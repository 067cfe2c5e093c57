import Verif.SpecText
import Verif.Lemmas.Basic
/-
UTF-8: characters can be told apart, and nothing but a whole character looks like one.
-/
namespace AdBlock
open Spec

@[simp] theorem utf8_nil : utf8 [] = [] := rfl

@[simp] theorem utf8_cons (c : Char) (s : Chars) : utf8 (c :: s) = String.utf8EncodeChar c ++ utf8 s := rfl

@[simp] theorem utf8_append (s t : Chars) : utf8 (s ++ t) = utf8 s ++ utf8 t := by simp [utf8]

theorem fromUtf8_utf8 (s : Chars) : fromUtf8 (utf8 s) = some s := by
  have h : (utf8 s).toByteArray = s.utf8Encode := by simp [utf8, List.utf8Encode]
  simp [fromUtf8, h]

theorem utf8_of_fromUtf8 {b : Bytes} {s : Chars} (h : fromUtf8 b = some s) : b = utf8 s := by
  have e : (ByteArray.utf8Decode? b.toByteArray).isSome := by
    unfold fromUtf8 at h
    cases hd : ByteArray.utf8Decode? b.toByteArray with
    | none => rw [hd] at h; cases h
    | some x => rfl
  obtain ⟨l, hl⟩ := ByteArray.isSome_utf8Decode?_iff.1 e
  have hb : b = utf8 l := by
    simpa [utf8, List.utf8Encode] using hl
  rw [hb, fromUtf8_utf8] at h
  rw [hb, Option.some.inj h]

theorem utf8_injective {s t : Chars} (h : utf8 s = utf8 t) : s = t := by
  have := fromUtf8_utf8 s
  rw [h, fromUtf8_utf8] at this
  exact (Option.some.inj this).symm

/-- the first character can be read off -/
theorem encode_append {c d : Char} {x y : Bytes} (h : String.utf8EncodeChar c ++ x = String.utf8EncodeChar d ++ y) :
    c = d ∧ x = y := by
  have hc := ByteArray.utf8DecodeChar?_utf8EncodeChar_append (b := x.toByteArray) (c := c)
  have hd := ByteArray.utf8DecodeChar?_utf8EncodeChar_append (b := y.toByteArray) (c := d)
  rw [← List.toByteArray_append] at hc hd
  rw [h, hd] at hc
  have e := Option.some.inj hc
  subst e
  exact ⟨rfl, List.append_cancel_left h⟩

/-- the form of a character: a byte by which it begins, and bytes by which none begins -/
theorem encode_form (c : Char) : ∃ b r, String.utf8EncodeChar c = b :: r ∧ b.IsUTF8FirstByte ∧ ∀ x ∈ r, ¬ x.IsUTF8FirstByte := by
  have h := fun i hi => UInt8.isUTF8FirstByte_getElem_utf8EncodeChar (c := c) (i := i) (hi := hi)
  have hl : 0 < (String.utf8EncodeChar c).length := by simp [c.utf8Size_pos]
  generalize String.utf8EncodeChar c = l at h hl
  cases l with
  | nil => simp at hl
  | cons b r =>
    refine ⟨b, r, rfl, (h 0 (by simp)).2 rfl, fun x hx => ?_⟩
    obtain ⟨i, hi, rfl⟩ := List.getElem_of_mem hx
    have := h (i + 1) (by simpa using hi)
    simpa using this

/-- an ASCII character is one byte -/
theorem encode_ascii {c : Char} (h : c.val < 128) : String.utf8EncodeChar c = [c.val.toUInt8] := by
  have : c.utf8Size = 1 := Char.utf8Size_eq_one_iff.2 (by
    have := UInt32.lt_iff_toNat_lt.1 h
    exact UInt32.le_iff_toNat_le.2 (by simp at this ⊢; omega))
  rw [String.utf8EncodeChar_eq_singleton this]

/-- the others have no ASCII bytes -/
theorem encode_other {c : Char} (h : ¬ c.val < 128) : ∀ x ∈ String.utf8EncodeChar c, 128 ≤ x := by
  have hs : c.utf8Size = 2 ∨ c.utf8Size = 3 ∨ c.utf8Size = 4 := by
    rcases c.utf8Size_eq with h1 | h1
    · exfalso
      have := Char.utf8Size_eq_one_iff.1 h1
      have := UInt32.le_iff_toNat_le.1 this
      exact h (UInt32.lt_iff_toNat_lt.2 (by simp at this ⊢; omega))
    · exact h1
  have t1 : ∀ a : Byte, 128 ≤ (a &&& 0x3f ||| 0x80) := byte_forall (by decide +kernel)
  have t2 : ∀ a : Byte, 128 ≤ (a &&& 0x1f ||| 0xc0) := byte_forall (by decide +kernel)
  have t3 : ∀ a : Byte, 128 ≤ (a &&& 0x0f ||| 0xe0) := byte_forall (by decide +kernel)
  have t4 : ∀ a : Byte, 128 ≤ (a &&& 0x07 ||| 0xf0) := byte_forall (by decide +kernel)
  rcases hs with e | e | e
  · rw [String.utf8EncodeChar_eq_cons_cons e]
    simp only [List.forall_mem_cons]
    exact ⟨t2 _, t1 _, by simp⟩
  · rw [String.utf8EncodeChar_eq_cons_cons_cons e]
    simp only [List.forall_mem_cons]
    exact ⟨t3 _, t1 _, t1 _, by simp⟩
  · rw [String.utf8EncodeChar_eq_cons_cons_cons_cons e]
    simp only [List.forall_mem_cons]
    exact ⟨t4 _, t1 _, t1 _, t1 _, by simp⟩

/-- different ASCII characters have different bytes -/
theorem ascii_byte {c d : Char} (hc : c.val < 128) (hd : d.val < 128) (h : c.val.toUInt8 = d.val.toUInt8) : c = d := by
  have := encode_append (c := c) (d := d) (x := []) (y := []) (by rw [encode_ascii hc, encode_ascii hd, h])
  exact this.1

/-- where the byte of an ASCII character stands, there is this character -/
theorem encode_mem {a c : Char} (ha : a.val < 128) : a.val.toUInt8 ∈ String.utf8EncodeChar c ↔ c = a := by
  constructor
  · intro h
    by_cases hc : c.val < 128
    · rw [encode_ascii hc] at h
      exact (ascii_byte ha hc (List.mem_singleton.1 h)).symm
    · have h1 := UInt8.le_iff_toNat_le.1 (encode_other hc _ h)
      have h2 := UInt32.lt_iff_toNat_lt.1 ha
      rw [UInt32.toNat_toUInt8] at h1
      simp only [UInt32.reduceToNat, UInt8.reduceToNat] at h1 h2
      omega
  · rintro rfl
    rw [encode_ascii ha]
    simp

theorem utf8_mem {a : Char} (ha : a.val < 128) (s : Chars) : a.val.toUInt8 ∈ utf8 s ↔ a ∈ s := by
  induction s with
  | nil => simp
  | cons c s ih =>
    rw [utf8_cons, List.mem_append, encode_mem ha, ih, List.mem_cons]
    simp [eq_comm]

/-! ### splitting -/

theorem splitOn_noSep {sep : Byte} {x : Bytes} (h : sep ∉ x) (y : Bytes) :
    splitOn sep (x ++ y) = match splitOn sep y with | [] => [x] | p :: ps => (x ++ p) :: ps := by
  induction x with
  | nil =>
    cases y with
    | nil => rfl
    | cons c y =>
      simp only [List.nil_append]
      cases hs : splitOn sep (c :: y) with
      | nil =>
        exfalso
        unfold splitOn at hs
        split at hs
        · cases hs
        · split at hs <;> cases hs
      | cons p ps => rfl
  | cons c x ih =>
    have hc : c ≠ sep := fun e => h (by simp [e])
    rw [List.cons_append, splitOn, if_neg hc, ih (fun hx => h (by simp [hx]))]
    cases splitOn sep y <;> rfl

theorem utf8_split {sep : Char} (hs : sep.val < 128) (s : Chars) :
    splitOn sep.val.toUInt8 (utf8 s) = (splitText sep s).map utf8 := by
  induction s with
  | nil => rfl
  | cons c s ih =>
    by_cases hc : c = sep
    · subst hc
      rw [utf8_cons, encode_ascii hs, List.singleton_append, splitOn, if_pos rfl, splitText, if_pos rfl, ih]
      rfl
    · have hn : sep.val.toUInt8 ∉ String.utf8EncodeChar c := fun h => hc ((encode_mem hs).1 h)
      rw [utf8_cons, splitOn_noSep hn, ih, splitText, if_neg hc]
      cases splitText sep s with
      | nil => simp
      | cons p ps => simp

theorem utf8_lines (s : Chars) : Spec.lines (utf8 s) = (textLines s).map utf8 := by
  unfold Spec.lines textLines
  rw [← utf8_split (sep := '\n') (by decide)]
  congr 1
  induction s with
  | nil => rfl
  | cons c s ih =>
    rw [utf8_cons, List.map_append, ih, List.map_cons, utf8_cons]
    congr 1
    by_cases hc : c = '\r'
    · subst hc; decide
    · rw [if_neg hc]
      refine (List.map_congr_left fun x hx => ?_).trans (List.map_id _)
      have : x ≠ 13 := by
        rintro rfl
        exact hc ((encode_mem (a := '\r') (by decide)).1 hx)
      simp [this]

/-! ### parts of strings -/

theorem utf8_prefix {p t : Chars} : utf8 p <+: utf8 t ↔ p <+: t := by
  constructor
  · induction p generalizing t with
    | nil => simp
    | cons c p ih =>
      rintro ⟨r, h⟩
      cases t with
      | nil =>
        obtain ⟨b, x, e, -⟩ := encode_form c
        simp [e] at h
      | cons d t =>
        simp only [utf8_cons, List.append_assoc] at h
        obtain ⟨rfl, h'⟩ := encode_append h
        exact List.cons_prefix_cons.2 ⟨rfl, ih ⟨r, h'⟩⟩
  · rintro ⟨r, rfl⟩
    exact ⟨utf8 r, by simp⟩

/-- What begins where a character may begin, begins with a character. -/
theorem utf8_aligned {b : Byte} (hb : b.IsUTF8FirstByte) {t : Chars} {x y : Bytes} (h : utf8 t = x ++ b :: y) :
    ∃ s r, t = s ++ r ∧ utf8 s = x ∧ utf8 r = b :: y := by
  induction t generalizing x with
  | nil => simp at h
  | cons c t ih =>
    obtain ⟨a, l, e, ha, hl⟩ := encode_form c
    cases x with
    | nil => exact ⟨[], c :: t, rfl, rfl, h⟩
    | cons a' x =>
      simp only [utf8_cons, e, List.cons_append, List.cons.injEq] at h
      obtain ⟨rfl, h⟩ := h
      rcases List.append_eq_append_iff.1 h with ⟨z, h1, h2⟩ | ⟨z, h1, h2⟩
      · obtain ⟨s, r, rfl, h3, h4⟩ := ih h2
        exact ⟨c :: s, r, rfl, by simp [e, h1, h3], h4⟩
      · cases z with
        | nil =>
          obtain ⟨s, r, rfl, h3, h4⟩ := ih (x := []) (by simpa using h2.symm)
          exact ⟨c :: s, r, rfl, by simp [e, h3]; simpa using h1, h4⟩
        | cons z zs =>
          simp only [List.cons_append, List.cons.injEq] at h2
          obtain ⟨rfl, h2⟩ := h2
          exact absurd hb (hl _ (by rw [h1]; simp))

theorem utf8_infix {p t : Chars} : utf8 p <:+: utf8 t ↔ p <:+: t := by
  constructor
  · cases p with
    | nil => intro _; exact List.nil_infix
    | cons c p =>
      rintro ⟨x, y, h⟩
      obtain ⟨b, l, e, hb, -⟩ := encode_form c
      obtain ⟨s, r, rfl, h1, h2⟩ := utf8_aligned hb (t := t) (x := x) (y := l ++ utf8 p ++ y) (by
        rw [← h]; simp [e])
      have : c :: p <+: r := utf8_prefix.1 ⟨y, by rw [h2]; simp [e]⟩
      exact (this.isInfix).trans (List.suffix_append s r).isInfix
  · rintro ⟨x, y, rfl⟩
    exact ⟨utf8 x, utf8 y, by simp⟩

theorem utf8_suffix {p t : Chars} : utf8 p <:+ utf8 t ↔ p <:+ t := by
  constructor
  · cases p with
    | nil => intro _; exact List.nil_suffix
    | cons c p =>
      rintro ⟨x, h⟩
      obtain ⟨b, l, e, hb, -⟩ := encode_form c
      obtain ⟨s, r, rfl, h1, h2⟩ := utf8_aligned hb (t := t) (x := x) (y := l ++ utf8 p) (by
        rw [← h]; simp [e])
      have : r = c :: p := utf8_injective (by rw [h2]; simp [e])
      exact ⟨s, by rw [this]⟩
  · rintro ⟨x, rfl⟩
    exact ⟨utf8 x, by simp⟩

/-! ### patterns -/

theorem utf8_length_pos {s : Chars} (h : s ≠ []) : 0 < (utf8 s).length := by
  cases s with
  | nil => exact absurd rfl h
  | cons c s =>
    obtain ⟨b, l, e, -⟩ := encode_form c
    simp [e]

theorem utf8_eq_nil {s : Chars} : utf8 s = [] ↔ s = [] := by
  constructor
  · intro h
    cases s with
    | nil => rfl
    | cons c s => have := utf8_length_pos (s := c :: s) (by simp); rw [h] at this; simp at this
  · rintro rfl; rfl

theorem sep_encode {c : Char} {b : Byte} (h : b ∈ String.utf8EncodeChar c) (hs : IsSep b) :
    SepChar c ∧ String.utf8EncodeChar c = [b] := by
  have key : ∀ a : Char, a.val < 128 → SepChar a → b = a.val.toUInt8 → SepChar c ∧ String.utf8EncodeChar c = [b] := by
    intro a ha hsa hb
    subst hb
    have := (encode_mem ha).1 h
    subst this
    exact ⟨hsa, encode_ascii ha⟩
  simp only [IsSep, separators, List.mem_cons, List.not_mem_nil, or_false] at hs
  rcases hs with hs | hs | hs | hs | hs | hs
  · exact key '$' (by decide) (by decide) hs
  · exact key '/' (by decide) (by decide) hs
  · exact key ':' (by decide) (by decide) hs
  · exact key '=' (by decide) (by decide) hs
  · exact key '?' (by decide) (by decide) hs
  · exact key '^' (by decide) (by decide) hs

theorem sepChar_encode {c : Char} (h : SepChar c) : ∃ b, String.utf8EncodeChar c = [b] ∧ IsSep b := by
  simp only [SepChar, List.mem_cons, List.not_mem_nil, or_false] at h
  rcases h with rfl | rfl | rfl | rfl | rfl | rfl
  all_goals exact ⟨_, encode_ascii (by decide), by decide⟩

theorem sep_first : ∀ b : Byte, IsSep b → b.IsUTF8FirstByte := byte_forall (by decide +kernel)

theorem encode_caret : String.utf8EncodeChar '^' = bs%"^" := by decide

theorem encode_has_caret {c : Char} (h : ch%'^' ∈ String.utf8EncodeChar c) : c = '^' :=
  (encode_mem (a := '^') (by decide)).1 h

theorem partAt_noCaret {l : Bytes} (h : ch%'^' ∉ l) (x v : Bytes) :
    PartAt (l ++ x) v ↔ ∃ w, v = l ++ w ∧ PartAt x w := by
  induction l generalizing v with
  | nil => simp
  | cons a l ih =>
    have ha : a ≠ ch%'^' := fun e => h (by simp [e])
    have ih := ih (fun hx => h (by simp [hx]))
    cases v with
    | nil => simp [PartAt, ha]
    | cons c v =>
      simp only [List.cons_append, PartAt, ha, false_and, or_false, ih, List.cons.injEq]
      constructor
      · rintro ⟨rfl, w, rfl, hw⟩; exact ⟨w, ⟨rfl, rfl⟩, hw⟩
      · rintro ⟨w, ⟨rfl, rfl⟩, hw⟩; exact ⟨rfl, w, rfl, hw⟩

theorem partAt_utf8 (p u : Chars) : PartAt (utf8 p) (utf8 u) ↔ TextPartAt p u := by
  induction p generalizing u with
  | nil => simp [PartAt, TextPartAt]
  | cons a ps ih =>
    cases u with
    | nil =>
      obtain ⟨b, l, e, -⟩ := encode_form a
      simp only [utf8_cons, utf8_nil, e, List.cons_append, PartAt, TextPartAt, List.append_eq_nil_iff, utf8_eq_nil]
      constructor
      · rintro ⟨rfl, -, h⟩
        exact ⟨encode_has_caret (by rw [e]; simp), h⟩
      · rintro ⟨rfl, h⟩
        rw [encode_caret] at e
        injection e with e1 e2
        exact ⟨e1.symm, e2.symm, h⟩
    | cons c us =>
      by_cases ha : a = '^'
      · subst ha
        obtain ⟨b, l, e, -⟩ := encode_form c
        simp only [utf8_cons, encode_caret, e, List.cons_append, List.nil_append, PartAt, TextPartAt, true_and]
        constructor
        · rintro ⟨hb, h⟩
          have hsep : IsSep b := by
            rcases hb with hb | hb
            · rw [← hb]; decide
            · exact hb
          obtain ⟨h1, h2⟩ := sep_encode (c := c) (b := b) (by rw [e]; simp) hsep
          rw [e] at h2
          injection h2 with _ h2
          subst h2
          exact ⟨.inr h1, (ih us).1 h⟩
        · rintro ⟨hc, h⟩
          have hsep : SepChar c := by
            rcases hc with rfl | hc
            · decide
            · exact hc
          obtain ⟨b', h1, h2⟩ := sepChar_encode hsep
          rw [e] at h1
          injection h1 with h1 h3
          subst h1 h3
          exact ⟨.inr h2, (ih us).2 h⟩
      · rw [utf8_cons, partAt_noCaret (fun h => ha (encode_has_caret h))]
        simp only [utf8_cons, TextPartAt, ha, false_and, or_false]
        constructor
        · rintro ⟨w, hw, h⟩
          obtain ⟨rfl, rfl⟩ := encode_append hw
          exact ⟨rfl, (ih us).1 h⟩
        · rintro ⟨rfl, h⟩
          exact ⟨utf8 us, rfl, (ih us).2 h⟩

/-- what a part takes of the address -/
theorem textPartAt_size {p r : Chars} (h : TextPartAt p r) :
    (utf8 r).drop (utf8 p).length = utf8 (r.drop p.length) ∧ ((utf8 p).length ≤ (utf8 r).length ↔ p.length ≤ r.length) ∧
    p.length ≤ r.length + 1 ∧ (utf8 p).length ≤ (utf8 r).length + 1 := by
  induction p generalizing r with
  | nil => simp
  | cons a ps ih =>
    cases r with
    | nil =>
      obtain ⟨rfl, rfl⟩ := h
      simp [encode_caret]
    | cons c r =>
      obtain ⟨hc, h⟩ := h
      obtain ⟨i1, i2, i3, i4⟩ := ih h
      have hlen : (String.utf8EncodeChar a).length = (String.utf8EncodeChar c).length := by
        rcases hc with rfl | ⟨rfl, hc⟩
        · rfl
        · obtain ⟨b, e, -⟩ := sepChar_encode hc
          rw [e, encode_caret]; rfl
      refine ⟨?_, ?_, ?_, ?_⟩
      · rw [utf8_cons, utf8_cons, List.length_append, hlen, List.drop_length_add_append]
        simpa using i1
      · rw [utf8_cons, utf8_cons, List.length_append, List.length_append, hlen]
        simp only [List.length_cons]
        omega
      · simp only [List.length_cons]; omega
      · rw [utf8_cons, utf8_cons, List.length_append, List.length_append, hlen]
        omega

theorem placedParts_drop {ps : List Bytes} {v : Bytes} (k : Nat) (h : PlacedParts ps (v.drop k)) : PlacedParts ps v := by
  cases ps with
  | nil => trivial
  | cons p ps =>
    rcases h with h | ⟨h1, h2, j, h3, h4, h5⟩
    · exact .inl h
    · simp only [List.length_drop] at h2 h3
      refine .inr ⟨h1, by omega, k + j, by omega, ?_, ?_⟩
      · simpa using h4
      · simpa [Nat.add_assoc] using h5

theorem utf8_length_iff {p s r : Chars} (h : TextPartAt p r) :
    (utf8 p).length ≤ (utf8 (s ++ r)).length ↔ p.length ≤ (s ++ r).length := by
  obtain ⟨-, h2, h3, h4⟩ := textPartAt_size h
  rw [utf8_append, List.length_append, List.length_append]
  cases s with
  | nil => simpa using h2
  | cons c s =>
    have := utf8_length_pos (s := c :: s) (by simp)
    constructor
    · intro _; simp only [List.length_cons]; omega
    · intro _; omega

theorem placedParts_utf8 (ps : List Chars) (u : Chars) : PlacedParts (ps.map utf8) (utf8 u) ↔ TextPlacedParts ps u := by
  induction ps generalizing u with
  | nil => simp [PlacedParts, TextPlacedParts]
  | cons p ps ih =>
    have hcaret : utf8 p = bs%"^" ↔ p = ['^'] := by
      rw [show bs%"^" = utf8 ['^'] from by decide]
      exact ⟨utf8_injective, by rintro rfl; rfl⟩
    have place : ∀ s r : Chars, u = s ++ r → r ≠ [] → TextPartAt p r →
        ((utf8 u).drop ((utf8 s).length + (utf8 p).length) = utf8 (u.drop (s.length + p.length)) ∧
        ((utf8 p).length ≤ (utf8 u).length ↔ p.length ≤ u.length)) := by
      rintro s r rfl hr h
      refine ⟨?_, utf8_length_iff h⟩
      rw [utf8_append, List.drop_length_add_append, List.drop_length_add_append]
      simpa using (textPartAt_size h).1
    simp only [List.map_cons, PlacedParts, TextPlacedParts, utf8_eq_nil, List.map_eq_nil_iff]
    refine or_congr Iff.rfl ⟨?_, ?_⟩
    · rintro ⟨h1, h2, k, hk, h3, h4⟩
      refine ⟨fun e => h1 (hcaret.2 e), ?_⟩
      cases p with
      | nil =>
        have hu : u ≠ [] := by rintro rfl; simp at hk
        refine ⟨by simp, 0, List.length_pos_iff.2 hu, trivial, ?_⟩
        exact (ih u).1 (placedParts_drop k (by simpa using h4))
      | cons a p =>
        obtain ⟨b, l, e, hb, -⟩ := encode_form a
        cases hd : (utf8 u).drop k with
        | nil => have := List.drop_eq_nil_iff.1 hd; omega
        | cons b' y =>
          have hb' : b'.IsUTF8FirstByte := by
            rw [hd, utf8_cons, e] at h3
            rcases h3.1 with rfl | ⟨-, hsep⟩
            · exact hb
            · exact sep_first _ hsep
          obtain ⟨s, r, rfl, hs, hr⟩ := utf8_aligned hb' (t := u) (x := (utf8 u).take k) (y := y) (by
            rw [← hd, List.take_append_drop])
          have hks : (utf8 s).length = k := by rw [hs, List.length_take]; omega
          have hr0 : r ≠ [] := by rintro rfl; simp at hr
          rw [hd, ← hr, partAt_utf8] at h3
          obtain ⟨q1, q2⟩ := place s r rfl hr0 h3
          refine ⟨q2.1 h2, s.length, ?_, by simpa using h3, ?_⟩
          · have := List.length_pos_iff.2 hr0
            simp only [List.length_append]; omega
          · rw [← ih, ← q1, hks]; exact h4
    · rintro ⟨h1, h2, k, hk, h3, h4⟩
      have hr0 : u.drop k ≠ [] := by
        intro e
        have := List.drop_eq_nil_iff.1 e
        omega
      have hks : (u.take k).length = k := by rw [List.length_take]; omega
      obtain ⟨q1, q2⟩ := place (u.take k) (u.drop k) (List.take_append_drop k u).symm hr0 h3
      have hdrop : (utf8 u).drop (utf8 (u.take k)).length = utf8 (u.drop k) := by
        conv => lhs; rw [← List.take_append_drop k u, utf8_append]
        simp
      have hlen : (utf8 (u.take k)).length < (utf8 u).length := by
        have := utf8_length_pos hr0
        conv => rhs; rw [← List.take_append_drop k u, utf8_append, List.length_append]
        omega
      refine ⟨fun e => h1 (hcaret.1 e), q2.2 h2, (utf8 (u.take k)).length, hlen, ?_, ?_⟩
      · rw [hdrop, partAt_utf8]; exact h3
      · rw [q1, ih, hks]; exact h4

theorem placed_utf8 (p u : Chars) : Placed (utf8 p) (utf8 u) ↔ TextPlaced p u := by
  unfold Placed TextPlaced
  rw [show (ch%'*' : Byte) = ('*' : Char).val.toUInt8 from by decide, utf8_split (by decide), placedParts_utf8]

end AdBlock
