import Verif.SpecSerialize
import Verif.Lemmas.Hex
/-! Helper lemmas: writing rules to buffers and reading them back. -/
namespace AdBlock
open Spec

/-! #### writing -/

abbrev zeros (n : Nat) : Bytes := List.replicate n 0

theorem zeros_add (m n : Nat) : zeros (m + n) = zeros m ++ zeros n := (List.replicate_append_replicate ..).symm

theorem writeAt_zeros (a s : Bytes) (n off : Nat) (h : off = a.length) :
    writeAt (a ++ zeros (s.length + n)) off s = .ok (a ++ s ++ zeros n) := by
  subst h
  unfold writeAt
  rw [if_pos (by simp), zeros_add]
  simp

theorem snprintfAt_zeros (a s : Bytes) (n off avail : Nat) (h : off = a.length) (hv : s.length < avail) :
    snprintfAt (a ++ zeros (s.length + 1 + n)) off avail s = .ok (a ++ (s ++ [0]) ++ zeros n) := by
  unfold snprintfAt
  rw [if_neg (by omega), List.take_of_length_le (by omega)]
  have := writeAt_zeros a (s ++ [0]) n off h
  simpa using this

theorem putField_none (base avail size : Nat) (o : Option Bytes) :
    putField none base avail size o = .ok (none, size + (o.getD []).length) := by
  cases o <;> simp [putField, putStr]

theorem putField_some (a : Bytes) (n base avail size : Nat) (o : Option Bytes) (h : base + size = a.length)
    (hv : (o.getD []).length < avail) :
    putField (some (a ++ zeros ((o.getD []).length + 1 + n))) base avail size o =
      .ok (some (a ++ (o.getD [] ++ [0]) ++ zeros n), size + (o.getD []).length) := by
  cases o with
  | none =>
    simp only [putField, Option.getD_none, List.length_nil, Nat.zero_add, Nat.add_zero, List.nil_append, Res.pure_eq]
    rw [zeros_add]
    simp
  | some s =>
    simp only [Option.getD_some] at hv
    simp only [putField, putStr, Option.getD_some, snprintfAt_zeros a s n _ _ h hv]
    rfl

theorem putTerminated_none (base size : Nat) (o : Option Bytes) :
    putTerminated none base size o = .ok (none, size + (o.getD []).length) := by
  cases o <;> simp [putTerminated, putBytes]

theorem putTerminated_some (a : Bytes) (n base size : Nat) (o : Option Bytes) (h : base + size = a.length) :
    putTerminated (some (a ++ zeros ((o.getD []).length + 1 + n))) base size o =
      .ok (some (a ++ (o.getD [] ++ [0]) ++ zeros n), size + (o.getD []).length) := by
  cases o with
  | none =>
    simp only [putTerminated, Option.getD_none, List.length_nil, Nat.zero_add, Nat.add_zero, List.nil_append, Res.pure_eq]
    rw [zeros_add]
    simp
  | some s =>
    have := writeAt_zeros a (s ++ [0]) n _ h
    simp only [List.length_append, List.length_singleton] at this
    simp only [putTerminated, putBytes, Option.getD_some, this]
    rfl

/-- The tag as it is written, empty without tag. -/
def tagPart (tag : Bytes) : Bytes := if tag = [] then [] else bs%"~#" ++ tag ++ bs%","

theorem putTag_none (base size : Nat) (tag : Bytes) :
    putTag none base size tag = .ok (none, size + (tagPart tag).length) := by
  cases tag <;> simp [putTag, putBytes, tagPart]

theorem putTag_some (a : Bytes) (n base size : Nat) (tag : Bytes) (h : base + size = a.length) :
    putTag (some (a ++ zeros ((tagPart tag).length + n))) base size tag =
      .ok (some (a ++ tagPart tag ++ zeros n), size + (tagPart tag).length) := by
  cases tag with
  | nil => simp [putTag, tagPart]
  | cons c t =>
    have e : tagSection (c :: t) = tagPart (c :: t) := by simp [tagSection, tagPart]
    have := writeAt_zeros a (tagPart (c :: t)) n _ h
    simp only [putTag, putBytes, e, this, List.length_cons, Nat.zero_lt_succ, gt_iff_lt, if_true]
    simp [tagPart]

theorem listBytes_eq (f : Filter) : listBytes f = tagPart f.tag ++ f.domainList.getD [] ++ [0] := rfl

/-- The text of a rule of an array, empty if it has none. -/
def ArrayText (f : Filter) (text : Bytes) : Prop := (f.data = none ∧ text = []) ∨ HasText f text

theorem ArrayText.dataString {f : Filter} {text : Bytes} (h : ArrayText f text) :
    ∃ o, dataString f.data = .ok o ∧ o.getD [] = text := by
  rcases h with ⟨h, rfl⟩ | ⟨h0, ⟨r, hr⟩, _⟩
  · exact ⟨none, by simp [AdBlock.dataString, h], rfl⟩
  · exact ⟨some text, by simp [AdBlock.dataString, hr, cstrAt_cstr h0], rfl⟩

theorem serializeFilter_none {f : Filter} {text : Bytes} (h : ArrayText f text) (base avail size : Nat) :
    serializeFilter none base avail size f = .ok (none, size + (ruleBytes text f).length) := by
  obtain ⟨o, ho, rfl⟩ := h.dataString
  unfold serializeFilter
  simp only [fmtXs_take (n := 255) (vs := [f.filterType, f.filterOption, f.antiFilterOption]) (by simp), putStr, ho,
    Res.bind_ok, putField_none, putTag_none, Res.pure_eq]
  simp only [ruleBytes, listBytes_eq, List.length_append, List.length_singleton]
  congr 2
  omega

theorem serializeFilter_some {f : Filter} {text : Bytes} (h : ArrayText f text) (a : Bytes) (n base avail size : Nat)
    (ha : base + size = a.length) (hv : (ruleBytes text f).length ≤ avail) :
    serializeFilter (some (a ++ zeros ((ruleBytes text f).length + n))) base avail size f =
      .ok (some (a ++ ruleBytes text f ++ zeros n), size + (ruleBytes text f).length) := by
  obtain ⟨o, ho, rfl⟩ := h.dataString
  simp only [ruleBytes, listBytes_eq, List.length_append, List.length_singleton] at hv ⊢
  unfold serializeFilter
  simp only [fmtXs_take (n := 255) (vs := [f.filterType, f.filterOption, f.antiFilterOption]) (by simp)]
  generalize fmtXs [f.filterType, f.filterOption, f.antiFilterOption] = sz at *
  generalize hT : (o.getD []) = T at *
  generalize hD : (f.domainList.getD []) = D at *
  generalize hH : (f.host.getD []) = H at *
  generalize hG : tagPart f.tag = G at *
  have e1 := snprintfAt_zeros a sz (T.length + 1 + (G.length + (D.length + 1 + (H.length + 1 + n)))) (base + size) avail ha (by omega)
  have e2 := putField_some (a ++ (sz ++ [0])) (G.length + (D.length + 1 + (H.length + 1 + n))) base avail
    (size + sz.length + 1) o (by simp; omega) (by rw [hT]; omega)
  have e3 := putTag_some (a ++ (sz ++ [0]) ++ (T ++ [0])) (D.length + 1 + (H.length + 1 + n)) base
    (size + sz.length + 1 + T.length + 1) f.tag (by simp; omega)
  have e4 := putField_some (a ++ (sz ++ [0]) ++ (T ++ [0]) ++ G) (H.length + 1 + n) base avail
    (size + sz.length + 1 + T.length + 1 + G.length) f.domainList (by simp; omega) (by rw [hD]; omega)
  have e5 := putField_some (a ++ (sz ++ [0]) ++ (T ++ [0]) ++ G ++ (D ++ [0])) n base avail
    (size + sz.length + 1 + T.length + 1 + G.length + D.length + 1) f.host (by simp; omega) (by rw [hH]; omega)
  rw [hT] at e2
  rw [hG] at e3
  rw [hD] at e4
  rw [hH] at e5
  have en : sz.length + 1 + T.length + 1 + (G.length + D.length + 1) + H.length + 1 + n =
      sz.length + 1 + (T.length + 1 + (G.length + (D.length + 1 + (H.length + 1 + n)))) := by omega
  rw [en]
  simp only [putStr, e1, Res.map_ok, Res.bind_ok, ho, e2, e3, e4, e5, Res.pure_eq]
  simp only [List.append_assoc]
  congr 2
  omega

/-- The text of a rule of an array, as it is written. -/
def writtenText (f : Filter) : Bytes :=
  match dataString f.data with
  | .ok o => o.getD []
  | .ub _ => []

theorem ArrayText.written {f : Filter} {text : Bytes} (h : ArrayText f text) : writtenText f = text := by
  obtain ⟨o, ho, rfl⟩ := h.dataString
  simp [writtenText, ho]

/-- The rule has a text which ends, or none at all. -/
def Written (f : Filter) : Prop := ∃ text, ArrayText f text

theorem Written.text {f : Filter} (h : Written f) : ArrayText f (writtenText f) := by
  obtain ⟨t, ht⟩ := h
  rw [ht.written]
  exact ht

/-- The bytes of an array. -/
def arrayBytes (fs : List Filter) : Bytes := fs.flatMap fun f => ruleBytes (writtenText f) f

theorem serializeFilters_none {fs : List Filter} (h : ∀ f ∈ fs, Written f) (base avail size : Nat) :
    serializeFilters none base avail fs size = .ok (none, size + (arrayBytes fs).length) := by
  induction fs generalizing size with
  | nil => simp [serializeFilters, arrayBytes]
  | cons f fs ih =>
    unfold serializeFilters
    rw [serializeFilter_none (h f (by simp)).text]
    simp only [Res.bind_ok]
    rw [ih (fun g hg => h g (by simp [hg]))]
    simp [arrayBytes]
    omega

theorem serializeFilters_some {fs : List Filter} (h : ∀ f ∈ fs, Written f) (a : Bytes) (n base avail size : Nat)
    (ha : base + size = a.length) (hv : (arrayBytes fs).length ≤ avail) :
    serializeFilters (some (a ++ zeros ((arrayBytes fs).length + n))) base avail fs size =
      .ok (some (a ++ arrayBytes fs ++ zeros n), size + (arrayBytes fs).length) := by
  induction fs generalizing size a with
  | nil => simp [serializeFilters, arrayBytes]
  | cons f fs ih =>
    have e : arrayBytes (f :: fs) = ruleBytes (writtenText f) f ++ arrayBytes fs := by simp [arrayBytes]
    rw [e] at hv ⊢
    rw [List.length_append] at hv ⊢
    unfold serializeFilters
    rw [show (ruleBytes (writtenText f) f).length + (arrayBytes fs).length + n =
      (ruleBytes (writtenText f) f).length + ((arrayBytes fs).length + n) by omega]
    rw [serializeFilter_some (h f (by simp)).text a _ base avail size ha (by omega)]
    simp only [Res.bind_ok]
    rw [ih (fun g hg => h g (by simp [hg])) _ _ (by simp; omega) (by omega)]
    simp only [List.append_assoc]
    congr 2
    omega

/-! #### entries of hash sets -/

/-- `ser` writes `enc` for the item `x`. -/
structure ItemWrites {T} (ser : T → Option Bytes → Nat → Res (Option Bytes × Nat)) (x : T) (enc : Bytes) : Prop where
  dry : ∀ off, ser x none off = .ok (none, enc.length)
  real : ∀ a n off, off = a.length → ser x (some (a ++ zeros (enc.length + n))) off =
    .ok (some (a ++ enc ++ zeros n), enc.length)

theorem rawData_bare {f : Filter} {pat : Bytes} (h : HasBareText f pat) : f.rawData = .ok pat := by
  obtain ⟨_, ⟨r, hr⟩, hl⟩ := h
  simp [Filter.rawData, hl, hr]

theorem Filter.serialize_writes {f : Filter} {text : Bytes} (h : HasBareText f text) :
    ItemWrites Filter.serialize f (entryBytes text f) := by
  have hl : f.dataLen = some text.length := h.2.2
  have hlen : ∀ v : BitVec 32, (fmtXs [v, f.filterType, f.filterOption, f.antiFilterOption]).take 63 =
    fmtXs [v, f.filterType, f.filterOption, f.antiFilterOption] := fun v => fmtXs_take (by simp)
  constructor
  · intro off
    unfold Filter.serialize
    simp only [hl, hlen, putBytes, putData, Res.bind_ok, Res.pure_eq, putTerminated_none, putTag_none]
    simp only [entryBytes, listBytes_eq, List.length_append, List.length_singleton]
    congr 2
    omega
  · intro a n off ha
    unfold Filter.serialize
    simp only [hl, hlen, entryBytes, listBytes_eq, List.length_append, List.length_singleton]
    generalize fmtXs [BitVec.ofNat 32 text.length, f.filterType, f.filterOption, f.antiFilterOption] = sz
    generalize hD : (f.domainList.getD []) = D at *
    generalize hH : (f.host.getD []) = H at *
    generalize hG : tagPart f.tag = G at *
    have e1 := writeAt_zeros a (sz ++ [0]) (text.length + (H.length + 1 + (G.length + (D.length + 1 + n)))) off ha
    have e2 := writeAt_zeros (a ++ (sz ++ [0])) text (H.length + 1 + (G.length + (D.length + 1 + n)))
      (off + (sz.length + 1)) (by simp; omega)
    have e3 := putTerminated_some (a ++ (sz ++ [0]) ++ text) (G.length + (D.length + 1 + n)) off
      (sz.length + 1 + text.length) f.host (by simp; omega)
    have e4 := putTag_some (a ++ (sz ++ [0]) ++ text ++ (H ++ [0])) (D.length + 1 + n) off
      (sz.length + 1 + text.length + H.length + 1) f.tag (by simp; omega)
    have e5 := putTerminated_some (a ++ (sz ++ [0]) ++ text ++ (H ++ [0]) ++ G) n off
      (sz.length + 1 + text.length + H.length + 1 + G.length) f.domainList (by simp; omega)
    rw [hH] at e3
    rw [hG] at e4
    rw [hD] at e5
    have en : sz.length + 1 + text.length + H.length + 1 + (G.length + D.length + 1) + n =
        sz.length + 1 + (text.length + (H.length + 1 + (G.length + (D.length + 1 + n)))) := by omega
    rw [List.length_append, List.length_singleton] at e1
    rw [en]
    simp only [putBytes, putData, e1, rawData_bare h, e2, e3, e4, e5, Res.map_ok, Res.bind_ok, Res.pure_eq]
    simp only [List.append_assoc]
    congr 2
    omega

theorem serializeDomain_writes (d : Bytes) : ItemWrites serializeDomain d (domainBytes d) := by
  have hlen : (fmtX (BitVec.ofNat 32 d.length) ++ bs%"x").take 63 = fmtX (BitVec.ofNat 32 d.length) ++ bs%"x" := by
    apply List.take_of_length_le
    have := fmtX_length (BitVec.ofNat 32 d.length)
    simp
    omega
  constructor
  · intro off
    simp only [serializeDomain, hlen, putBytes, Res.bind_ok, Res.pure_eq, domainBytes]
    simp
    omega
  · intro a n off ha
    simp only [serializeDomain, hlen, domainBytes]
    generalize fmtX (BitVec.ofNat 32 d.length) ++ bs%"x" = sz
    have e1 := writeAt_zeros a (sz ++ [0]) (d.length + (1 + n)) off ha
    have e2 := writeAt_zeros (a ++ (sz ++ [0])) d (1 + n) (off + (sz ++ [0]).length) (by simp; omega)
    have en : (sz ++ [0] ++ d ++ [0]).length + n = (sz ++ [0]).length + (d.length + (1 + n)) := by simp; omega
    rw [en]
    simp only [putBytes, e1, e2, Res.map_ok, Res.bind_ok, Res.pure_eq]
    rw [zeros_add]
    simp
    omega

/-! #### hash sets -/

section sets
variable {T : Type} {ser : T → Option Bytes → Nat → Res (Option Bytes × Nat)} {enc : T → Bytes}

theorem serializeItems_none {xs : List T} (h : ∀ x ∈ xs, ItemWrites ser x (enc x)) (off : Nat) :
    serializeItems ser xs none off = .ok (none, off + (xs.flatMap enc).length) := by
  induction xs generalizing off with
  | nil => simp [serializeItems]
  | cons x xs ih =>
    unfold serializeItems
    rw [(h x (by simp)).dry]
    simp only [Res.bind_ok]
    rw [ih (fun y hy => h y (by simp [hy]))]
    simp
    omega

theorem serializeItems_some {xs : List T} (h : ∀ x ∈ xs, ItemWrites ser x (enc x)) (a : Bytes) (n off : Nat)
    (ha : off = a.length) : serializeItems ser xs (some (a ++ zeros ((xs.flatMap enc).length + n))) off =
      .ok (some (a ++ xs.flatMap enc ++ zeros n), off + (xs.flatMap enc).length) := by
  induction xs generalizing off a with
  | nil => simp [serializeItems]
  | cons x xs ih =>
    rw [List.flatMap_cons, List.length_append, Nat.add_assoc]
    unfold serializeItems
    rw [(h x (by simp)).real a _ off ha]
    simp only [Res.bind_ok]
    rw [ih (fun y hy => h y (by simp [hy])) _ _ (by simp; omega)]
    simp only [List.append_assoc]
    congr 2
    omega

/-- The bytes of the buckets of a hash set. -/
def bucketBytes (enc : T → Bytes) (bs : List (List T)) : Bytes := bs.flatMap fun b => b.flatMap enc ++ [0]

theorem serializeBuckets_none {bs : List (List T)} (h : ∀ b ∈ bs, ∀ x ∈ b, ItemWrites ser x (enc x)) (off : Nat) :
    serializeBuckets ser bs none off = .ok (none, off + (bucketBytes enc bs).length) := by
  induction bs generalizing off with
  | nil => simp [serializeBuckets, bucketBytes]
  | cons b bs ih =>
    unfold serializeBuckets
    rw [serializeItems_none (h b (by simp))]
    simp only [Res.bind_ok, putBytes]
    rw [ih (fun y hy => h y (by simp [hy]))]
    simp [bucketBytes]
    omega

theorem serializeBuckets_some {bs : List (List T)} (h : ∀ b ∈ bs, ∀ x ∈ b, ItemWrites ser x (enc x)) (a : Bytes)
    (n off : Nat) (ha : off = a.length) : serializeBuckets ser bs (some (a ++ zeros ((bucketBytes enc bs).length + n))) off =
      .ok (some (a ++ bucketBytes enc bs ++ zeros n), off + (bucketBytes enc bs).length) := by
  induction bs generalizing off a with
  | nil => simp [serializeBuckets, bucketBytes]
  | cons b bs ih =>
    have e : bucketBytes enc (b :: bs) = b.flatMap enc ++ [0] ++ bucketBytes enc bs := by simp [bucketBytes]
    rw [e, List.length_append, List.length_append, List.length_singleton, Nat.add_assoc, Nat.add_assoc]
    unfold serializeBuckets
    rw [serializeItems_some (h b (by simp)) a _ off ha]
    have e1 := writeAt_zeros (a ++ b.flatMap enc) [0] ((bucketBytes enc bs).length + n) (off + (b.flatMap enc).length)
      (by simp; omega)
    rw [List.length_singleton] at e1
    simp only [Res.bind_ok, putBytes, e1, Res.map_ok]
    rw [ih (fun y hy => h y (by simp [hy])) _ _ (by simp; omega)]
    simp only [List.append_assoc]
    congr 2
    omega

/-- The bytes of a hash set. -/
def setBytes (enc : T → Bytes) (s : HSet T) : Bytes :=
  fmtX (BitVec.ofNat 32 s.count) ++ [0] ++ bucketBytes enc s.buckets

theorem HSet.serialize_eq {s : HSet T} (h : ∀ b ∈ s.buckets, ∀ x ∈ b, ItemWrites ser x (enc x)) :
    s.serialize ser = .ok (setBytes enc s) := by
  unfold HSet.serialize HSet.pass
  simp only [putBytes, Res.bind_ok, serializeBuckets_none h]
  have e1 := writeAt_zeros [] (fmtX (BitVec.ofNat 32 s.count) ++ [0]) (bucketBytes enc s.buckets).length 0 rfl
  rw [List.nil_append, List.nil_append] at e1
  simp only [e1, Res.map_ok, Res.bind_ok]
  have := serializeBuckets_some h (fmtX (BitVec.ofNat 32 s.count) ++ [0]) 0 (fmtX (BitVec.ofNat 32 s.count) ++ [0]).length rfl
  rw [Nat.add_zero] at this
  rw [this]
  simp [setBytes]

end sets

end AdBlock
