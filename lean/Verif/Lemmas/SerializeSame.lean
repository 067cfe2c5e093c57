import Verif.Lemmas.SerializeHistory
/-
Clients with the same rules are written alike.
-/
namespace AdBlock
open Spec

theorem listBytes_same {f g : Filter} (h : SameOptions f g) : listBytes g = listBytes f := by
  unfold listBytes; rw [h.tag, h.domainList]

theorem same_written {f g : Filter} (h : SameRule f g) (hf : Written f) :
    Written g ∧ ruleBytes (writtenText g) g = ruleBytes (writtenText f) f := by
  have hg : ArrayText g (writtenText f) := by
    rcases hf.text with ⟨hn, ht⟩ | ht
    · exact .inl ⟨h.noText hn, ht⟩
    · exact .inr (h.text _ ht)
  refine ⟨⟨_, hg⟩, ?_⟩
  rw [hg.written]
  unfold ruleBytes
  rw [listBytes_same h.toSameOptions, h.kind, h.options, h.antiOptions, h.host]

theorem same_arrayBytes {l m : List Filter} (h : Pointwise SameRule l m) (hl : ∀ f ∈ l, Written f) :
    (∀ g ∈ m, Written g) ∧ arrayBytes m = arrayBytes l := by
  induction h with
  | nil => exact ⟨by simp, rfl⟩
  | @cons f g l m hfg _ ih =>
    obtain ⟨h1, h2⟩ := same_written hfg (hl f (by simp))
    obtain ⟨h3, h4⟩ := ih fun f hf => hl f (by simp [hf])
    constructor
    · intro x hx
      rcases List.mem_cons.1 hx with rfl | hx
      · exact h1
      · exact h3 x hx
    · simp only [arrayBytes, List.flatMap_cons] at h4 ⊢
      rw [h2, h4]

theorem same_entry {f g : Filter} (h : SameEntry f g) (hf : ∃ pat, HasBareText f pat) :
    (∃ pat, HasBareText g pat) ∧ entryBytes (entryText g) g = entryBytes (entryText f) f := by
  obtain ⟨pat, hp⟩ := hf
  refine ⟨⟨pat, h.text pat hp⟩, ?_⟩
  rw [entryText_eq hp, entryText_eq (h.text pat hp)]
  unfold entryBytes
  rw [listBytes_same h.toSameOptions, h.kind, h.options, h.antiOptions, h.host]

theorem pointwise_mem {A B : Type} {R : A → B → Prop} {l : List A} {m : List B} (h : Pointwise R l m) :
    ∀ b ∈ m, ∃ a ∈ l, R a b := by
  induction h with
  | nil => simp
  | cons h _ ih =>
    intro b hb
    rcases List.mem_cons.1 hb with rfl | hb
    · exact ⟨_, by simp, h⟩
    · obtain ⟨a, ha, hr⟩ := ih b hb
      exact ⟨a, by simp [ha], hr⟩

theorem pointwise_flatMap {A B : Type} {R : A → B → Prop} {l : List A} {m : List B} (h : Pointwise R l m)
    {e : A → Bytes} {e' : B → Bytes} (he : ∀ a ∈ l, ∀ b, R a b → e' b = e a) : m.flatMap e' = l.flatMap e := by
  induction h with
  | nil => rfl
  | @cons a b l m hab _ ih =>
    rw [List.flatMap_cons, List.flatMap_cons, he a (by simp) b hab, ih fun a ha => he a (by simp [ha])]

theorem same_setBytes {A B : Type} {R : A → B → Prop} {s : HSet A} {t : HSet B} (h : SameSet R s t)
    {e : A → Bytes} {e' : B → Bytes} (he : ∀ i, i < s.count → ∀ a ∈ s.bucket i, ∀ b, R a b → e' b = e a) :
    setBytes e' t = setBytes e s := by
  unfold setBytes
  rw [h.count]
  congr 1
  unfold bucketBytes HSet.buckets
  rw [h.count, List.flatMap_map, List.flatMap_map]
  have key : ∀ l : List Nat, (∀ i ∈ l, i < s.count) →
      l.flatMap (fun i => (t.bucket i).flatMap e' ++ [0]) = l.flatMap (fun i => (s.bucket i).flatMap e ++ [0]) := by
    intro l hl
    induction l with
    | nil => rfl
    | cons i l ih =>
      rw [List.flatMap_cons, List.flatMap_cons, ih fun j hj => hl j (by simp [hj]),
        pointwise_flatMap (h.bucket i (hl i (by simp))) (he i (hl i (by simp)))]
  exact key _ fun i hi => List.mem_range.1 hi

theorem same_hostBytes {s t : Option (HSet Filter)} (h : SamePointer (SameSet SameEntry) s t)
    (hs : ∀ x, s = some x → ∀ i, i < x.count → ∀ f ∈ x.bucket i, ∃ pat, HasBareText f pat) :
    (∀ x, t = some x → ∀ i, i < x.count → ∀ f ∈ x.bucket i, ∃ pat, HasBareText f pat) ∧ hostBytes t = hostBytes s := by
  cases h with
  | null => exact ⟨by simp, rfl⟩
  | @some a b h =>
    constructor
    · intro x hx i hi f hf
      cases hx
      rw [h.count] at hi
      obtain ⟨g, hg, hr⟩ := pointwise_mem (h.bucket i hi) f hf
      exact (same_entry hr (hs a rfl i hi g hg)).1
    · exact same_setBytes h fun i hi f hf g hr => (same_entry hr (hs a rfl i hi f hf)).2

theorem same_domBytes {s t : Option (HSet Bytes)} (h : SamePointer (SameSet Eq) s t) : domBytes t = domBytes s := by
  cases h with
  | null => rfl
  | some h => exact same_setBytes h fun i hi f hf g hr => by rw [hr]

/-- Clients with the same rules and indexes write the same data. -/
theorem network_bytes {E : Env} {ic ih : Bool} {c d : Client E} (h : SameNetwork c d) (hc : WrittenClient c)
    (hl : ∀ id, Pointwise SameRule (c.storedList ic ih id) (d.storedList ic ih id)) :
    WrittenClient d ∧ d.bytes ic ih = c.bytes ic ih := by
  obtain ⟨h1, h2⟩ := same_hostBytes h.hostSet hc.hostSet
  obtain ⟨h3, h4⟩ := same_hostBytes h.hostExceptionSet hc.hostExceptionSet
  refine ⟨⟨fun id => ?_, h1, h3⟩, ?_⟩
  · obtain ⟨l, hs, hp⟩ := h.pageRules id
    exact (same_arrayBytes hp fun f hf => hc.rules id f (hs.subset hf)).1
  · have hsec : d.sections = c.sections := by
      unfold Client.sections
      rw [h.bloom, h.exceptionBloom, h2, h4]
      congr 1
      exact List.map_congr_left fun i _ => same_domBytes (h.domSets i)
    have harr : ∀ l : List ListId, (l.map (d.storedList ic ih)).flatMap arrayBytes =
        (l.map (c.storedList ic ih)).flatMap arrayBytes := by
      intro l
      induction l with
      | nil => rfl
      | cons i l ih' =>
        rw [List.map_cons, List.map_cons, List.flatMap_cons, List.flatMap_cons, ih',
          (same_arrayBytes (hl i) (hc.stored ic ih i)).2]
    have hlen : (d.arrays ic ih).map List.length = (c.arrays ic ih).map List.length := by
      unfold Client.arrays
      rw [List.map_map, List.map_map]
      refine List.map_congr_left fun i _ => ?_
      exact pointwise_length (hl i)
    have hhead : d.header ic ih = c.header ic ih := by
      unfold Client.header
      rw [hlen, hsec, h.numHostAnchoredFilters, h.numHostAnchoredExceptionFilters]
    unfold Client.bytes
    rw [hhead, hsec]
    congr 2
    exact harr storedLists

/-- A client without the rules which were left out is written like the original one. -/
theorem same_bytes {E : Env} {ic ih : Bool} {c d : Client E} (h : SameClient ic ih c d) (hc : WrittenClient c) :
    WrittenClient d ∧ d.bytes ic ih = c.bytes ic ih := by
  refine network_bytes (same_network h) hc fun id => ?_
  have := h.lists id
  rw [← storedList_kept] at this
  cases id <;> simp only [Client.storedList] at this ⊢ <;> try exact this
  · split
    · exact .nil
    · rename_i hi; rw [if_neg hi] at this; exact this
  · split
    · exact .nil
    · rename_i hi; rw [if_neg hi] at this; exact this

/-! ### sizes of the written data -/

theorem setBytes_empty {T : Type} {enc : T → Bytes} {s : HSet T} (h : ∀ i, s.bucket i = []) :
    (setBytes enc s).length ≤ 9 + s.count := by
  have key : ∀ l : List Nat, ((l.map s.bucket).flatMap fun b => b.flatMap enc ++ [0]).length = l.length := by
    intro l
    induction l with
    | nil => rfl
    | cons i l ih => rw [List.map_cons, List.flatMap_cons, List.length_append, ih, h i]; simp; omega
  have := fmtX_length (BitVec.ofNat 32 s.count)
  unfold setBytes bucketBytes HSet.buckets
  rw [List.length_append, List.length_append, key]
  simp
  omega

theorem bytes_length_le {E : Env} (c : Client E) (ic ih : Bool) :
    (c.bytes ic ih).length ≤ 181 + ((c.arrays ic ih).flatMap arrayBytes).length + (c.sections.map List.length).sum := by
  have h1 := fmtXs_length ((c.header ic ih).map (BitVec.ofNat 32))
  rw [List.length_map, header_length] at h1
  unfold Client.bytes
  rw [List.length_append, List.length_append, List.length_append, List.length_flatten, List.length_singleton]
  omega

end AdBlock
