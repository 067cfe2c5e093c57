import Verif.Lemmas.Deserialize
/-! Helper lemmas: writing hash sets and clients, and reading them back. -/
namespace AdBlock
open Spec

section sets
variable {T U : Type} {ser : T → Option Bytes → Nat → Res (Option Bytes × Nat)} {enc : T → Bytes}
  {de : Ptr → Nat → Res (Option (U × Nat))} {R : T → U → Prop}

/-- `de` reads an item corresponding to `x` from `enc`. -/
structure ItemReads (de : Ptr → Nat → Res (Option (U × Nat))) (R : T → U → Prop) (x : T) (enc : Bytes) : Prop where
  head : ∃ c s, enc = c :: s ∧ c ≠ 0
  read : ∀ q size, enc.length ≤ size → ∃ y, de (enc ++ q) size = .ok (some (y, enc.length)) ∧ R x y

theorem items_length {xs : List T} (h : ∀ x ∈ xs, ItemReads de R x (enc x)) : xs.length ≤ (xs.flatMap enc).length := by
  induction xs with
  | nil => simp
  | cons x xs ih =>
    have := ih fun y hy => h y (by simp [hy])
    obtain ⟨c, s, e, _⟩ := (h x (by simp)).head
    simp only [List.length_cons, List.flatMap_cons, List.length_append]
    have : 0 < (enc x).length := by rw [e]; simp
    omega

theorem deserializeItems_eq {xs : List T} (h : ∀ x ∈ xs, ItemReads de R x (enc x)) (q : Ptr) (fuel size : Nat)
    (hf : xs.length < fuel) (hs : (xs.flatMap enc).length < size) :
    ∃ ys, deserializeItems de fuel (xs.flatMap enc ++ 0 :: q) size =
      .ok (some (ys, 0 :: q, size - (xs.flatMap enc).length)) ∧ Pointwise R xs ys := by
  induction xs generalizing fuel size with
  | nil =>
    cases fuel with
    | zero => simp at hf
    | succ k => exact ⟨[], by simp [deserializeItems], .nil⟩
  | cons x xs ih =>
    cases fuel with
    | zero => simp at hf
    | succ k =>
      have hx := h x (by simp)
      rw [List.flatMap_cons, List.length_append] at hs
      obtain ⟨y, hy, hr⟩ := hx.read (xs.flatMap enc ++ 0 :: q) size (by omega)
      obtain ⟨ys, hys, hrs⟩ := ih (fun y hy => h y (by simp [hy])) k (size - (enc x).length)
        (by simpa using hf) (by omega)
      obtain ⟨c, s, e, hc⟩ := hx.head
      refine ⟨y :: ys, ?_, .cons hr hrs⟩
      rw [List.flatMap_cons, List.append_assoc]
      have hrd : rd (enc x ++ (xs.flatMap enc ++ 0 :: q)) 0 = .ok c := by rw [e]; rfl
      unfold deserializeItems
      rw [hrd]
      simp only [Res.bind_ok, hc, if_false]
      rw [if_neg (by omega), hy]
      simp only [Res.bind_ok]
      rw [if_neg (by omega), List.drop_left, hys]
      simp only [Res.bind_ok, Res.pure_eq, List.length_append]
      rw [Nat.sub_sub]

theorem deserializeBuckets_eq {bs : List (List T)} (h : ∀ b ∈ bs, ∀ x ∈ b, ItemReads de R x (enc x)) (q : Ptr)
    (size : Nat) (hs : (bucketBytes enc bs).length ≤ size) :
    ∃ cs, deserializeBuckets de bs.length (bucketBytes enc bs ++ q) size = .ok (some cs) ∧ Pointwise (Pointwise R) bs cs := by
  induction bs generalizing size with
  | nil => exact ⟨[], by simp [deserializeBuckets], .nil⟩
  | cons b bs ih =>
    have e : bucketBytes enc (b :: bs) = b.flatMap enc ++ 0 :: bucketBytes enc bs := by simp [bucketBytes]
    rw [e, List.length_append, List.length_cons] at hs
    have hb := h b (by simp)
    have hl := items_length hb
    obtain ⟨ys, hys, hr⟩ := deserializeItems_eq hb (bucketBytes enc bs ++ q) (size + 1) size (by omega) (by omega)
    obtain ⟨cs, hcs, hrs⟩ := ih (fun y hy => h y (by simp [hy])) (size - (b.flatMap enc).length - 1) (by omega)
    refine ⟨ys :: cs, ?_, .cons hr hrs⟩
    rw [e, List.append_assoc, List.cons_append]
    simp only [List.length_cons, deserializeBuckets, hys, Res.bind_ok, List.drop_succ_cons, List.drop_zero, hcs, Res.pure_eq]

theorem pointwise_length {l : List T} {m : List U} (h : Pointwise R l m) : m.length = l.length := by
  induction h with
  | nil => rfl
  | cons _ _ ih => simp [ih]

theorem pointwise_get {l : List T} {m : List U} (h : Pointwise R l m) {i : Nat} {x : T} (hx : l[i]? = some x) :
    ∃ y, m[i]? = some y ∧ R x y := by
  induction h generalizing i with
  | nil => simp at hx
  | cons hab _ ih =>
    cases i with
    | zero => simp at hx; subst hx; exact ⟨_, rfl, hab⟩
    | succ i => simp at hx; simpa using ih hx

theorem HSet.deserialize_eq {s : HSet T} (h : ∀ i, i < s.count → ∀ x ∈ s.bucket i, ItemReads de R x (enc x))
    (hc : 0 < s.count) (hm : s.count < 2 ^ 32) (q : Ptr) :
    ∃ t, HSet.deserialize de (setBytes enc s ++ q) (setBytes enc s).length = .ok (some t) ∧ SameSet R s t := by
  have hb : ∀ b ∈ s.buckets, ∀ x ∈ b, ItemReads de R x (enc x) := by
    intro b hb
    obtain ⟨i, hi, rfl⟩ := List.mem_map.1 hb
    exact h i (List.mem_range.1 hi)
  have hlen : s.buckets.length = s.count := by simp [HSet.buckets]
  have h0 := fmtX_no_zero (BitVec.ofNat 32 s.count)
  obtain ⟨cs, hcs, hr⟩ := deserializeBuckets_eq hb q (bucketBytes enc s.buckets).length (Nat.le_refl _)
  have hne : 0 < (bucketBytes enc s.buckets).length := by
    unfold bucketBytes
    cases e : s.buckets with
    | nil => rw [e] at hlen; simp at hlen; omega
    | cons b bs => simp; omega
  have hsl : (setBytes enc s).length = (fmtX (BitVec.ofNat 32 s.count)).length + 1 + (bucketBytes enc s.buckets).length := by
    simp [setBytes]
    omega
  have hscan : (scanXs [0] (fmtX (BitVec.ofNat 32 s.count))).getD 0 0 = BitVec.ofNat 32 s.count := by
    have := scanXs_fmtXs [BitVec.ofNat 32 s.count] [0] rfl
    simp only [fmtXs] at this
    rw [this]
    rfl
  refine ⟨⟨s.count, fun i => cs.getD i []⟩, ?_, rfl, fun i hi => ?_⟩
  · unfold HSet.deserialize
    rw [show setBytes enc s ++ q = fmtX (BitVec.ofNat 32 s.count) ++ 0 :: (bucketBytes enc s.buckets ++ q) by simp [setBytes]]
    rw [hsl, hasNewlineBefore_append (by omega) h0]
    simp only [Res.bind_ok, Bool.not_true, Bool.false_eq_true, if_false, cstrAt_cstr h0, hscan, BitVec.toNat_ofNat]
    rw [if_neg (by omega), Nat.mod_eq_of_lt hm, drop_string,
      show (fmtX (BitVec.ofNat 32 s.count)).length + 1 + (bucketBytes enc s.buckets).length -
        ((fmtX (BitVec.ofNat 32 s.count)).length + 1) = (bucketBytes enc s.buckets).length by omega]
    rw [hlen] at hcs
    simp only [hcs, Res.bind_ok, Res.pure_eq]
  · have : s.buckets[i]? = some (s.bucket i) := by simp [HSet.buckets, hi]
    obtain ⟨y, hy, hry⟩ := pointwise_get hr this
    simp [List.getD, hy]
    exact hry

end sets

/-! #### the entries -/

/-- The text of an entry of a hash set, as it is written. -/
def entryText (f : Filter) : Bytes :=
  match f.rawData with
  | .ok d => d
  | .ub _ => []

theorem entryText_eq {f : Filter} {pat : Bytes} (h : HasBareText f pat) : entryText f = pat := by
  simp [entryText, rawData_bare h]

theorem entry_writes {f : Filter} {text : Bytes} (h : HasBareText f text) :
    ItemWrites Filter.serialize f (entryBytes (entryText f) f) := by
  rw [entryText_eq h]
  exact Filter.serialize_writes h

theorem fmtXs_head (v : BitVec 32) (vs : List (BitVec 32)) (r : Bytes) : ∃ c s, fmtXs (v :: vs) ++ r = c :: s ∧ c ≠ 0 := by
  have h0 := fmtXs_no_zero (v :: vs)
  cases e : fmtXs (v :: vs) with
  | nil => exact absurd e (fmtXs_ne_nil v vs)
  | cons c s =>
    rw [e] at h0
    exact ⟨c, s ++ r, rfl, fun h => h0 (by simp [h])⟩

/-- `g` is the entry `f` as it is read back: its text lies in memory before its host. -/
def ReadBack (f g : Filter) : Prop :=
  ∃ text q, HasBareText f text ∧ 0 ∉ f.host.getD [] ∧ g = readEntry text f q

theorem ReadBack.same {f g : Filter} (h : ReadBack f g) : SameEntry f g := by
  obtain ⟨text, q, ht, _, rfl⟩ := h
  exact readEntry_same q ht

theorem entry_reads_back {f : Filter} (h : StorableEntry f) :
    ItemReads Filter.deserialize ReadBack f (entryBytes (entryText f) f) := by
  obtain ⟨text, ht, hl⟩ := h.text
  rw [entryText_eq ht]
  refine ⟨?_, fun q size hs => ⟨_, Filter.deserialize_eq h.toStorableOptions hl q size hs, text, q, ht,
    getD_host h.toStorableOptions, rfl⟩⟩
  simp only [entryBytes, List.append_assoc]
  exact fmtXs_head _ _ _

theorem entry_reads {f : Filter} (h : StorableEntry f) :
    ItemReads Filter.deserialize SameEntry f (entryBytes (entryText f) f) :=
  ⟨(entry_reads_back h).head, fun q size hs => by
    obtain ⟨y, h1, h2⟩ := (entry_reads_back h).read q size hs
    exact ⟨y, h1, h2.same⟩⟩

theorem pointwise_mono {A B : Type _} {R S : A → B → Prop} (hRS : ∀ a b, R a b → S a b) {l : List A} {m : List B}
    (h : Pointwise R l m) : Pointwise S l m := by
  induction h with
  | nil => exact .nil
  | cons h _ ih => exact .cons (hRS _ _ h) ih

theorem samePointer_readBack {s t : Option (HSet Filter)} (h : SamePointer (SameSet ReadBack) s t) :
    SamePointer (SameSet SameEntry) s t := by
  cases h with
  | null => exact .null
  | some h => exact .some ⟨h.count, fun i hi => pointwise_mono (fun _ _ h => h.same) (h.bucket i hi)⟩

theorem domain_reads {d : Bytes} (h : d.length < 2 ^ 31) : ItemReads deserializeDomain Eq d (domainBytes d) := by
  refine ⟨?_, fun q size hs => ⟨d, deserializeDomain_eq h q size hs, rfl⟩⟩
  simp only [domainBytes, List.append_assoc]
  exact fmtXs_head (BitVec.ofNat 32 d.length) [] _

/-! #### the client -/

/-- The bytes of a hash set of rules. -/
def hostBytes (s : Option (HSet Filter)) : Bytes :=
  match s with
  | none => []
  | some s => setBytes (fun f => entryBytes (entryText f) f) s

/-- The bytes of a hash set of domains. -/
def domBytes (s : Option (HSet Bytes)) : Bytes :=
  match s with
  | none => []
  | some s => setBytes domainBytes s

/-- The sections after the arrays. -/
def Client.sections {E} (c : Client E) : List Bytes :=
  [bloomSection c.bloom, bloomSection c.exceptionBloom, hostBytes c.hostSet, hostBytes c.hostExceptionSet] ++
    storedSets.map fun d => domBytes (c.domSets d)

/-- The arrays which are written. -/
theorem storedList_kept {E} (c : Client E) (ic ih : Bool) (id : ListId) : c.storedList ic ih id = kept ic ih c id := by
  cases ic <;> cases ih <;> cases id <;> rfl

def Client.arrays {E} (c : Client E) (ic ih : Bool) : List (List Filter) := storedLists.map (c.storedList ic ih)

/-- The numbers of the header. -/
def Client.header {E} (c : Client E) (ic ih : Bool) : List Nat :=
  (c.arrays ic ih).map List.length ++ [c.numHostAnchoredFilters, c.numHostAnchoredExceptionFilters] ++
    c.sections.map List.length

/-- The whole buffer. -/
def Client.bytes {E} (c : Client E) (ic ih : Bool) : Bytes :=
  fmtXs ((c.header ic ih).map (BitVec.ofNat 32)) ++ [0] ++ (c.arrays ic ih).flatMap arrayBytes ++ c.sections.flatten

/-- Clients which can be written: their rules have texts. -/
structure WrittenClient {E : Env} (c : Client E) : Prop where
  rules : ∀ id, ∀ f ∈ c.lists id, Written f
  hostSet : ∀ s, c.hostSet = some s → ∀ i, i < s.count → ∀ f ∈ s.bucket i, ∃ pat, HasBareText f pat
  hostExceptionSet : ∀ s, c.hostExceptionSet = some s → ∀ i, i < s.count → ∀ f ∈ s.bucket i, ∃ pat, HasBareText f pat

theorem WrittenClient.stored {E} {c : Client E} (h : WrittenClient c) (ic ih : Bool) (id : ListId) :
    ∀ f ∈ c.storedList ic ih id, Written f := by
  intro f hf
  refine h.rules id f ?_
  cases id <;> simp only [Client.storedList] at hf <;> try exact hf
  · split at hf
    · simp at hf
    · exact hf
  · split at hf
    · simp at hf
    · exact hf

theorem section_host {s : Option (HSet Filter)}
    (h : ∀ t, s = some t → ∀ i, i < t.count → ∀ f ∈ t.bucket i, ∃ pat, HasBareText f pat) :
    sectionOf Filter.serialize s = .ok (hostBytes s) := by
  cases s with
  | none => rfl
  | some s =>
    refine HSet.serialize_eq fun b hb x hx => ?_
    obtain ⟨i, hi, rfl⟩ := List.mem_map.1 hb
    obtain ⟨pat, hp⟩ := h s rfl i (List.mem_range.1 hi) x hx
    exact entry_writes hp

theorem section_dom (s : Option (HSet Bytes)) : sectionOf serializeDomain s = .ok (domBytes s) := by
  cases s with
  | none => rfl
  | some s => exact HSet.serialize_eq fun b hb x hx => serializeDomain_writes x

theorem dryLists_eq {ls : List (List Filter)} (h : ∀ l ∈ ls, ∀ f ∈ l, Written f) :
    dryLists ls = .ok (ls.flatMap arrayBytes).length := by
  induction ls with
  | nil => rfl
  | cons l ls ih =>
    simp only [dryLists, serializeFilters_none (h l (by simp)), Res.bind_ok, ih fun m hm => h m (by simp [hm]), Res.pure_eq]
    simp

theorem writeLists_eq {ls : List (List Filter)} (h : ∀ l ∈ ls, ∀ f ∈ l, Written f) (a : Bytes) (n total : Nat)
    (hv : (a ++ ls.flatMap arrayBytes).length ≤ total) :
    writeLists total ls (some (a ++ zeros ((ls.flatMap arrayBytes).length + n))) a.length =
      .ok (some (a ++ ls.flatMap arrayBytes ++ zeros n), (a ++ ls.flatMap arrayBytes).length) := by
  induction ls generalizing a with
  | nil => simp [writeLists]
  | cons l ls ih =>
    rw [List.flatMap_cons] at hv ⊢
    rw [List.length_append, List.length_append] at hv
    rw [List.length_append, Nat.add_assoc]
    unfold writeLists
    rw [serializeFilters_some (h l (by simp)) a _ a.length (total - a.length) 0 (by omega) (by omega)]
    simp only [Res.bind_ok, Nat.zero_add]
    have := ih (fun m hm => h m (by simp [hm])) (a ++ arrayBytes l) (by rw [List.length_append, List.length_append]; omega)
    rw [List.length_append] at this
    rw [this]
    simp only [List.append_assoc]

theorem writeSections_eq (ss : List Bytes) (a : Bytes) (n : Nat) :
    writeSections ss (some (a ++ zeros (ss.flatten.length + n))) a.length =
      .ok (some (a ++ ss.flatten ++ zeros n), (a ++ ss.flatten).length) := by
  induction ss generalizing a with
  | nil => simp [writeSections]
  | cons s ss ih =>
    rw [List.flatten_cons, List.length_append, Nat.add_assoc]
    unfold writeSections
    simp only [putBytes, writeAt_zeros a s _ _ rfl, Res.map_ok, Res.bind_ok]
    have := ih (a ++ s)
    rw [List.length_append] at this
    rw [this]
    simp only [List.append_assoc]

theorem header_length {E} (c : Client E) (ic ih : Bool) : (c.header ic ih).length = 20 := by
  simp [Client.header, Client.arrays, Client.sections, storedLists, storedSets]

/-- What `serialize` returns. -/
theorem serialize_eq {E} {c : Client E} (h : WrittenClient c) (ic ih : Bool) :
    c.serialize ic ih = .ok ⟨c.bytes ic ih, (c.bytes ic ih).length, (c.bytes ic ih).length⟩ := by
  have hw : ∀ l ∈ c.arrays ic ih, ∀ f ∈ l, Written f := by
    intro l hl
    obtain ⟨id, _, rfl⟩ := List.mem_map.1 hl
    exact h.stored ic ih id
  unfold Client.serialize
  simp only [section_host h.hostSet, section_host h.hostExceptionSet, section_dom, Res.bind_ok]
  rw [show [bloomSection c.bloom, bloomSection c.exceptionBloom, hostBytes c.hostSet, hostBytes c.hostExceptionSet,
    domBytes (c.domSets .domain), domBytes (c.domSets .antiDomain), domBytes (c.domSets .domainException),
    domBytes (c.domSets .antiDomainException)] = c.sections from rfl]
  rw [show storedLists.map (c.storedList ic ih) = c.arrays ic ih from rfl]
  rw [show (c.arrays ic ih).map List.length ++ [c.numHostAnchoredFilters, c.numHostAnchoredExceptionFilters] ++
    c.sections.map List.length = c.header ic ih from rfl]
  rw [fmtXs_take (by simp [header_length])]
  have hb : c.bytes ic ih = fmtXs ((c.header ic ih).map (BitVec.ofNat 32)) ++ [0] ++ (c.arrays ic ih).flatMap arrayBytes ++
    c.sections.flatten := rfl
  generalize fmtXs ((c.header ic ih).map (BitVec.ofNat 32)) = sz at hb ⊢
  simp only [dryLists_eq hw, Res.bind_ok]
  have htotal : 1 + sz.length + ((c.arrays ic ih).flatMap arrayBytes).length + (c.sections.map List.length).sum =
      (c.bytes ic ih).length := by
    rw [hb]
    simp
    omega
  rw [htotal]
  have hl : (c.bytes ic ih).length = sz.length + 1 + (((c.arrays ic ih).flatMap arrayBytes).length + (c.sections.flatten.length + 0)) := by
    rw [hb]
    simp
    omega
  have e1 := snprintfAt_zeros [] sz (((c.arrays ic ih).flatMap arrayBytes).length + (c.sections.flatten.length + 0)) 0
    (c.bytes ic ih).length rfl (by omega)
  rw [← hl, List.nil_append, List.nil_append] at e1
  have e2 := writeLists_eq hw (sz ++ [0]) (c.sections.flatten.length + 0) (c.bytes ic ih).length (by rw [hb]; simp)
  have e3 := writeSections_eq c.sections (sz ++ [0] ++ (c.arrays ic ih).flatMap arrayBytes) 0
  rw [show (sz ++ [(0 : UInt8)]).length = sz.length + 1 by simp] at e2
  simp only [putStr, e1, Res.map_ok, Res.bind_ok, e2, e3, Res.pure_eq]
  rw [← hb]
  simp

/-! #### reading the client -/

theorem headerNats_eq {ns : List Nat} (h : ∀ n ∈ ns, n < 2 ^ 31) : headerNats (ns.map (BitVec.ofNat 32)) = .ok ns := by
  induction ns with
  | nil => rfl
  | cons n ns ih =>
    have hn := h n (by simp)
    simp only [List.map_cons, headerNats, headerNat, BitVec.toNat_ofNat, Nat.mod_eq_of_lt (by omega : n < 2 ^ 32), hn,
      if_true, Res.pure_eq, Res.bind_ok, ih fun m hm => h m (by simp [hm])]

theorem readLists_eq {ls : List (List Filter)} (h : ∀ l ∈ ls, ∀ f ∈ l, StorableRule f) (q : Ptr) :
    ∃ ms, readLists (ls.map List.length) (ls.flatMap arrayBytes ++ q) = .ok (ms, q) ∧
      Pointwise (Pointwise SameRule) ls ms := by
  induction ls with
  | nil => exact ⟨[], rfl, .nil⟩
  | cons l ls ih =>
    obtain ⟨ms, e, hr⟩ := ih fun m hm => h m (by simp [hm])
    obtain ⟨gs, e', hr'⟩ := deserializeFilters_eq (h l (by simp)) (ls.flatMap arrayBytes ++ q)
    refine ⟨gs :: ms, ?_, .cons hr' hr⟩
    rw [List.flatMap_cons, List.append_assoc]
    simp only [List.map_cons, readLists, e', Res.bind_ok, e, Res.pure_eq]

theorem initBloom_eq (E : Env) (b : Option E.fp.B) (q : Ptr) :
    initBloomFilter E (bloomSection b ++ q) (bloomSection b).length = .ok b := by
  cases b with
  | none => rfl
  | some b =>
    have := E.fp.buffer_ne_nil b
    simp [initBloomFilter, bloomSection, this, E.fp.ofBuffer_buffer]

theorem setBytes_ne_nil {T} (enc : T → Bytes) (s : HSet T) : (setBytes enc s).length ≠ 0 := by
  simp [setBytes]

theorem initHost_eq {s : Option (HSet Filter)} (h : ∀ t, s = some t → StorableSet StorableEntry t) (q : Ptr) :
    ∃ t, initHashSet Filter.deserialize (hostBytes s ++ q) (hostBytes s).length = .ok (some t) ∧
      SamePointer (SameSet ReadBack) s t := by
  cases s with
  | none => exact ⟨none, rfl, .null⟩
  | some s =>
    have hs := h s rfl
    obtain ⟨t, e, hr⟩ := HSet.deserialize_eq (s := s) (enc := fun f => entryBytes (entryText f) f)
      (fun i hi x hx => entry_reads_back (hs.entries i hi x hx)) hs.count.1 hs.count.2 q
    refine ⟨some t, ?_, .some hr⟩
    simp only [initHashSet, hostBytes, setBytes_ne_nil, if_false, e, Res.bind_ok, Res.pure_eq]

theorem initDom_eq {s : Option (HSet Bytes)} (h : ∀ t, s = some t → StorableSet (fun x => x.length < 2 ^ 31) t) (q : Ptr) :
    ∃ t, initHashSet deserializeDomain (domBytes s ++ q) (domBytes s).length = .ok (some t) ∧
      SamePointer (SameSet Eq) s t := by
  cases s with
  | none => exact ⟨none, rfl, .null⟩
  | some s =>
    have hs := h s rfl
    obtain ⟨t, e, hr⟩ := HSet.deserialize_eq (s := s) (enc := domainBytes)
      (fun i hi x hx => domain_reads (hs.entries i hi x hx)) hs.count.1 hs.count.2 q
    refine ⟨some t, ?_, .some hr⟩
    simp only [initHashSet, domBytes, setBytes_ne_nil, if_false, e, Res.bind_ok, Res.pure_eq]

theorem readSets_eq {ss : List (Option (HSet Bytes))}
    (h : ∀ s ∈ ss, ∀ t, s = some t → StorableSet (fun x => x.length < 2 ^ 31) t) (q : Ptr) :
    ∃ ts, readSets (ss.map fun s => (domBytes s).length) (ss.flatMap domBytes ++ q) = .ok (some ts) ∧
      Pointwise (SamePointer (SameSet Eq)) ss ts := by
  induction ss with
  | nil => exact ⟨[], rfl, .nil⟩
  | cons s ss ih =>
    obtain ⟨ts, e, hr⟩ := ih fun m hm => h m (by simp [hm])
    obtain ⟨t, e', hr'⟩ := initDom_eq (h s (by simp)) (ss.flatMap domBytes ++ q)
    refine ⟨t :: ts, ?_, .cons hr' hr⟩
    rw [List.flatMap_cons, List.append_assoc]
    simp only [List.map_cons, readSets, e', Res.bind_ok, List.drop_left, e, Res.pure_eq]

theorem arrayBytes_length (fs : List Filter) : fs.length ≤ (arrayBytes fs).length := by
  induction fs with
  | nil => simp
  | cons f fs ih =>
    rw [show arrayBytes (f :: fs) = ruleBytes (writtenText f) f ++ arrayBytes fs by simp [arrayBytes]]
    simp [ruleBytes]
    omega

theorem mem_length_flatMap {T} {l : List T} {x : T} {g : T → Bytes} (h : x ∈ l) : (g x).length ≤ (l.flatMap g).length := by
  induction l with
  | nil => simp at h
  | cons y l ih =>
    simp only [List.flatMap_cons, List.length_append]
    rcases List.mem_cons.1 h with rfl | h
    · omega
    · have := ih h
      omega

theorem header_small {E} {c : Client E} {ic ih : Bool}
    (h : c.numHostAnchoredFilters < 2 ^ 31 ∧ c.numHostAnchoredExceptionFilters < 2 ^ 31)
    (hs : (c.bytes ic ih).length < 2 ^ 31) : ∀ n ∈ c.header ic ih, n < 2 ^ 31 := by
  have hl : ((c.arrays ic ih).flatMap arrayBytes).length + c.sections.flatten.length < 2 ^ 31 := by
    simp only [Client.bytes, List.length_append] at hs
    omega
  intro n hn
  simp only [Client.header, List.mem_append, List.mem_map] at hn
  rcases hn with (⟨l, hm, rfl⟩ | hn) | ⟨s, hm, rfl⟩
  · have h1 := arrayBytes_length l
    have h2 := mem_length_flatMap (g := arrayBytes) hm
    omega
  · simp at hn
    rcases hn with rfl | rfl
    · exact h.1
    · exact h.2
  · have := mem_length_flatMap (g := id) hm
    rw [List.flatMap_id] at this
    simp at this
    simp at hl
    omega

/-- Reading back a client, `R` being what is known of the rules of the arrays and `S` of those of the hash sets. -/
theorem deserialize_with {E} {c : Client E} {ic ih : Bool} {R S : Filter → Filter → Prop}
    (hn : c.numHostAnchoredFilters < 2 ^ 31 ∧ c.numHostAnchoredExceptionFilters < 2 ^ 31)
    (hs : (c.bytes ic ih).length < 2 ^ 31)
    (hlists : ∀ q, ∃ ms, readLists ((c.arrays ic ih).map List.length) ((c.arrays ic ih).flatMap arrayBytes ++ q) = .ok (ms, q) ∧
      Pointwise (Pointwise R) (c.arrays ic ih) ms)
    (hhost : ∀ q, ∃ t, initHashSet Filter.deserialize (hostBytes c.hostSet ++ q) (hostBytes c.hostSet).length = .ok (some t) ∧
      SamePointer (SameSet S) c.hostSet t)
    (hhost' : ∀ q, ∃ t, initHashSet Filter.deserialize (hostBytes c.hostExceptionSet ++ q) (hostBytes c.hostExceptionSet).length =
      .ok (some t) ∧ SamePointer (SameSet S) c.hostExceptionSet t)
    (hdom : ∀ d s, c.domSets d = some s → StorableSet (fun x => x.length < 2 ^ 31) s)
    (d : Client E) (q : Ptr) : ∃ d', d.deserialize (c.bytes ic ih ++ q) = .ok (some d') ∧
      (∀ id, Pointwise R (kept ic ih c id) (d'.lists id)) ∧ d'.numHostAnchoredFilters = c.numHostAnchoredFilters ∧
      d'.numHostAnchoredExceptionFilters = c.numHostAnchoredExceptionFilters ∧ d'.bloom = c.bloom ∧
      d'.exceptionBloom = c.exceptionBloom ∧ SamePointer (SameSet S) c.hostSet d'.hostSet ∧
      SamePointer (SameSet S) c.hostExceptionSet d'.hostExceptionSet ∧
      (∀ i, SamePointer (SameSet Eq) (c.domSets i) (d'.domSets i)) ∧
      d'.tags = d.tags ∧ d'.stats = {} ∧ d'.badFps = none := by
  obtain ⟨ms, hms, hrl⟩ := hlists (c.sections.flatten ++ q)
  obtain ⟨t1, ht1, hr1⟩ := hhost (hostBytes c.hostExceptionSet ++ ((storedSets.map c.domSets).flatMap domBytes ++ q))
  obtain ⟨t2, ht2, hr2⟩ := hhost' ((storedSets.map c.domSets).flatMap domBytes ++ q)
  obtain ⟨ts, hts, hrs⟩ := readSets_eq (ss := storedSets.map c.domSets) (by
    intro s hs t ht
    obtain ⟨d, _, rfl⟩ := List.mem_map.1 hs
    exact hdom d t ht) q
  have hsec : c.sections.flatten ++ q = bloomSection c.bloom ++ (bloomSection c.exceptionBloom ++ (hostBytes c.hostSet ++
      (hostBytes c.hostExceptionSet ++ ((storedSets.map c.domSets).flatMap domBytes ++ q)))) := by
    simp [Client.sections, storedSets]
  have hz := fmtXs_no_zero ((c.header ic ih).map (BitVec.ofNat 32))
  have hbytes : c.bytes ic ih ++ q = fmtXs ((c.header ic ih).map (BitVec.ofNat 32)) ++
      0 :: ((c.arrays ic ih).flatMap arrayBytes ++ (c.sections.flatten ++ q)) := by
    simp [Client.bytes]
  have h10 : (c.header ic ih).take 10 = (c.arrays ic ih).map List.length := by
    simp [Client.header, Client.arrays, storedLists]
  have h16 : (c.header ic ih).drop 16 = (storedSets.map c.domSets).map fun s => (domBytes s).length := by
    simp [Client.header, Client.arrays, storedLists, Client.sections, storedSets]
  have g10 : (c.header ic ih).getD 10 0 = c.numHostAnchoredFilters := rfl
  have g11 : (c.header ic ih).getD 11 0 = c.numHostAnchoredExceptionFilters := rfl
  have g12 : (c.header ic ih).getD 12 0 = (bloomSection c.bloom).length := rfl
  have g13 : (c.header ic ih).getD 13 0 = (bloomSection c.exceptionBloom).length := rfl
  have g14 : (c.header ic ih).getD 14 0 = (hostBytes c.hostSet).length := rfl
  have g15 : (c.header ic ih).getD 15 0 = (hostBytes c.hostExceptionSet).length := rfl
  refine ⟨{ d.clear with
      lists := fun id => ms.getD id.index []
      numHostAnchoredFilters := c.numHostAnchoredFilters
      numHostAnchoredExceptionFilters := c.numHostAnchoredExceptionFilters
      bloom := c.bloom
      exceptionBloom := c.exceptionBloom
      hostSet := t1
      hostExceptionSet := t2
      domSets := fun d => ts.getD d.index none
      deserializedBuffer := some (c.bytes ic ih ++ q) }, ?_, ?_, rfl, rfl, rfl, rfl, hr1, hr2, ?_, rfl, rfl, rfl⟩
  · unfold Client.deserialize
    rw [hbytes, cstrAt_cstr hz]
    simp only [Res.bind_ok]
    rw [scanXs_fmtXs _ (List.replicate 20 0) (by simp [header_length]), headerNats_eq (header_small hn hs)]
    simp only [Res.bind_ok, h10, h16, g10, g11, g12, g13, g14, g15, drop_string, hms]
    rw [hsec]
    simp only [initBloom_eq, List.drop_left, Res.bind_ok, ht1, ht2, hts, Res.pure_eq]
  · intro id
    rw [← storedList_kept]
    have : (c.arrays ic ih)[id.index]? = some (c.storedList ic ih id) := by cases id <;> rfl
    obtain ⟨y, hy, hr⟩ := pointwise_get hrl this
    simp only [List.getD, hy, Option.getD_some]
    exact hr
  · intro i
    have : (storedSets.map c.domSets)[i.index]? = some (c.domSets i) := by cases i <;> rfl
    obtain ⟨y, hy, hr⟩ := pointwise_get hrs this
    simp only [List.getD, hy, Option.getD_some]
    exact hr

/-- Reading back a client, with the layout of the entries of its hash sets. -/
theorem deserialize_entries {E} {c : Client E} {ic ih : Bool} (h : StorableClient ic ih c) (hs : (c.bytes ic ih).length < 2 ^ 31)
    (d : Client E) (q : Ptr) : ∃ d', d.deserialize (c.bytes ic ih ++ q) = .ok (some d') ∧ SameClient ic ih c d' ∧
      d'.tags = d.tags ∧ d'.stats = {} ∧ d'.badFps = none ∧
      SamePointer (SameSet ReadBack) c.hostSet d'.hostSet ∧
      SamePointer (SameSet ReadBack) c.hostExceptionSet d'.hostExceptionSet := by
  have hw : ∀ l ∈ c.arrays ic ih, ∀ f ∈ l, StorableRule f := by
    intro l hl f hf
    obtain ⟨id, _, rfl⟩ := List.mem_map.1 hl
    rw [storedList_kept] at hf
    exact h.rules id f hf
  obtain ⟨d', h0, h1, h2, h3, h4, h5, h6, h7, h8, h9, h10, h11⟩ := deserialize_with h.counters hs (readLists_eq hw)
    (initHost_eq h.hostSet) (initHost_eq h.hostExceptionSet) h.domSets d q
  exact ⟨d', h0, ⟨h1, h2, h3, h4, h5, samePointer_readBack h6, samePointer_readBack h7, h8⟩, h9, h10, h11, h6, h7⟩

/-- Reading back a client. -/
theorem deserialize_eq {E} {c : Client E} {ic ih : Bool} (h : StorableClient ic ih c) (hs : (c.bytes ic ih).length < 2 ^ 31)
    (d : Client E) (q : Ptr) : ∃ d', d.deserialize (c.bytes ic ih ++ q) = .ok (some d') ∧ SameClient ic ih c d' ∧
      d'.tags = d.tags ∧ d'.stats = {} ∧ d'.badFps = none := by
  obtain ⟨d', h1, h2, h3, h4, h5, _⟩ := deserialize_entries h hs d q
  exact ⟨d', h1, h2, h3, h4, h5⟩

end AdBlock
