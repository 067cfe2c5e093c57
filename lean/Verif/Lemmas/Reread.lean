import Verif.SpecReread
import Verif.Lemmas.SerializeHistory
/-! Helper lemmas: reading back rules which the format cannot represent. -/
namespace AdBlock
open Spec

theorem getD_clean {f : Filter} (h : CleanStrings f) : 0 ∉ f.domainList.getD [] := by
  cases e : f.domainList with
  | none => simp
  | some s => exact h.domains s e

theorem getD_host_clean {f : Filter} (h : CleanStrings f) : 0 ∉ f.host.getD [] := by
  cases e : f.host with
  | none => simp
  | some s => exact h.host s e

theorem takeWhile_ne {s : Bytes} (h : ch%',' ∈ s) :
    s = s.takeWhile (· != ch%',') ++ ch%',' :: (s.dropWhile (· != ch%',')).drop 1 := by
  induction s with
  | nil => simp at h
  | cons a s ih =>
    by_cases ha : a = ch%','
    · subst ha; simp
    · have h' : ch%',' ∈ s := by
        rcases List.mem_cons.1 h with e | e
        · exact absurd e.symm ha
        · exact e
      have hb : (a != ch%',') = true := by simpa using ha
      rw [List.takeWhile_cons, if_pos hb, List.dropWhile_cons, if_pos hb, List.cons_append]
      exact congrArg (a :: ·) (ih h')

theorem takeTag_looks {s : Bytes} (h0 : 0 ∉ s) (q : Ptr) :
    takeTag (bs%"~#" ++ s ++ 0 :: q) = .ok (s.takeWhile (· != ch%','), afterComma s ++ 0 :: q) := by
  rw [show bs%"~#" ++ s ++ 0 :: q = ch%'~' :: ch%'#' :: (s ++ 0 :: q) from rfl]
  simp only [takeTag, rd_cons_zero, rd_cons_succ, Res.bind_ok, if_true, List.drop_succ_cons, List.drop_zero,
    cstrAt_cstr h0, Res.pure_eq]
  unfold afterComma
  by_cases hc : ch%',' ∈ s
  · rw [if_pos hc, if_pos hc]
    congr 2
    generalize ht : s.takeWhile (· != ch%',') = t
    generalize hr : (s.dropWhile (· != ch%',')).drop 1 = r
    have e := takeWhile_ne hc
    rw [ht, hr] at e
    rw [show 2 + (t.length + 1) = t.length + 1 + 1 + 1 by omega, List.drop_succ_cons, List.drop_succ_cons, e]
    rw [show (t ++ ch%',' :: r) ++ 0 :: q = (t ++ [ch%',']) ++ (r ++ 0 :: q) by simp]
    exact List.drop_left' (by simp)
  · rw [if_neg hc, if_neg hc]

/-- The tag and the list of domains which are read back. -/
theorem takeTag_reread {f : Filter} (h : CleanStrings f) (q : Ptr) :
    takeTag (listBytes f ++ q) = .ok (rereadTag f, rereadDomains f ++ 0 :: q) := by
  have hd := getD_clean h
  rw [listBytes_eq, List.append_assoc, List.append_assoc]
  unfold rereadTag rereadDomains
  by_cases hl : LooksTagged f
  · rw [if_pos hl, if_pos hl]
    obtain ⟨ht, s, hs⟩ := hl
    rw [← hs] at hd ⊢
    have h0 : 0 ∉ s := fun hm => hd (by simp [hm])
    rw [show (bs%"~#" ++ s).drop 2 = s from rfl, ← takeTag_looks h0 q, ht]
    simp [tagPart]
  · rw [if_neg hl, if_neg hl]
    by_cases ht : f.tag = []
    · have := takeTag_none (dl := f.domainList.getD []) (fun hp => hl ⟨ht, hp⟩) q
      rw [ht]
      simpa [tagPart] using this
    · exact takeTag_tag h.tag.1 h.tag.2 ht hd q

theorem rereadDomains_clean {f : Filter} (h : CleanStrings f) : 0 ∉ rereadDomains f := by
  have hd := getD_clean h
  unfold rereadDomains
  split
  · unfold afterComma
    split
    · exact fun hm => hd (List.mem_of_mem_drop ((List.dropWhile_sublist _).subset (List.mem_of_mem_drop hm)))
    · exact fun hm => hd (List.mem_of_mem_drop hm)
  · exact hd

/-- The rule read back from `ruleBytes text f ++ q`. -/
def reread₀ (text : Bytes) (f : Filter) (q : Ptr) : Filter where
  borrowed := true
  filterType := f.filterType
  filterOption := f.filterOption
  antiFilterOption := f.antiFilterOption
  data := (orNull text).map fun _ => text ++ 0 :: (listBytes f ++ f.host.getD [] ++ 0 :: q)
  tag := rereadTag f
  domainList := orNull (rereadDomains f)
  host := orNull (f.host.getD [])

theorem deserializeFilter_reread {f : Filter} (h : CleanStrings f) {text : Bytes} (ht : 0 ∉ text) (q : Ptr) :
    deserializeFilter (ruleBytes text f ++ q) = .ok (reread₀ text f q, q) := by
  have hs := fmtXs_no_zero [f.filterType, f.filterOption, f.antiFilterOption]
  have e : ruleBytes text f ++ q = fmtXs [f.filterType, f.filterOption, f.antiFilterOption] ++
      0 :: (text ++ 0 :: (listBytes f ++ (f.host.getD [] ++ 0 :: q))) := by simp [ruleBytes]
  rw [e]
  unfold deserializeFilter
  rw [cstrAt_cstr hs]
  simp only [Res.bind_ok]
  rw [scanXs_fmtXs [f.filterType, f.filterOption, f.antiFilterOption] [0, 0, 0] rfl]
  rw [drop_string]
  simp only [takeString_eq ht, Res.bind_ok, takeTag_reread h, takeString_eq (rereadDomains_clean h),
    takeString_eq (getD_host_clean h), Res.pure_eq, reread₀]
  simp

/-- what the text of the rule is replaced by -/
theorem rereadRule_data {f : Filter} {text : Bytes} (ht : ArrayText f text) :
    (text = [] → (rereadRule f).data = none) ∧ (text ≠ [] → (rereadRule f).data = f.data) := by
  rcases ht with ⟨hn, rfl⟩ | ⟨h0, ⟨r, hr⟩, _⟩
  · exact ⟨fun _ => by simp [rereadRule, hn], fun h => absurd rfl h⟩
  · refine ⟨fun e => by simp [rereadRule, hr, e], fun hne => ?_⟩
    cases text with
    | nil => exact absurd rfl hne
    | cons a t =>
      have ha : a ≠ 0 := fun e => h0 (by simp [e])
      simp [rereadRule, hr, ha]

theorem reread₀_same {f : Filter} (q : Ptr) {text : Bytes} (ht : ArrayText f text) :
    SameRule (rereadRule f) (reread₀ text f q) := by
  refine { kind := rfl, options := rfl, antiOptions := rfl, tag := rfl, domainList := rfl, host := ?_, noText := ?_, text := ?_ }
  · simp [reread₀, orNull_getD, rereadRule, rereadEntry]
  · intro hn
    by_cases he : text = []
    · simp [reread₀, orNull, he]
    · rw [(rereadRule_data ht).2 he] at hn
      rcases ht with ⟨_, rfl⟩ | ⟨_, ⟨r, hr⟩, _⟩
      · exact absurd rfl he
      · simp [hn] at hr
  · intro pat hp
    by_cases he : text = []
    · obtain ⟨_, ⟨r, hr⟩, _⟩ := hp
      rw [(rereadRule_data ht).1 he] at hr
      cases hr
    · have hf : HasText f pat := by
        obtain ⟨h0, ⟨r, hr⟩, hl⟩ := hp
        rw [(rereadRule_data ht).2 he] at hr
        exact ⟨h0, ⟨r, hr⟩, hl⟩
      have e : text = pat := by
        rw [← ht.written]
        exact ArrayText.written (.inr hf)
      subst e
      exact ⟨hf.1, ⟨listBytes f ++ f.host.getD [] ++ 0 :: q, by simp [reread₀, orNull, he]⟩, .inl rfl⟩

theorem cleanRule_written {f : Filter} (h : CleanRule f) : Written f := by
  rcases h.text with h | ⟨pat, h⟩
  · exact ⟨[], .inl ⟨h, rfl⟩⟩
  · exact ⟨pat, .inr h⟩

theorem deserializeFilters_reread {fs : List Filter} (h : ∀ f ∈ fs, CleanRule f) (q : Ptr) :
    ∃ gs, deserializeFilters fs.length (arrayBytes fs ++ q) = .ok (gs, q) ∧
      Pointwise (fun f g => SameRule (rereadRule f) g) fs gs := by
  induction fs with
  | nil => exact ⟨[], by simp [deserializeFilters, arrayBytes], .nil⟩
  | cons f fs ih =>
    obtain ⟨gs, e, hs⟩ := ih fun g hg => h g (by simp [hg])
    have hf := h f (by simp)
    have ht := (cleanRule_written hf).text
    refine ⟨reread₀ (writtenText f) f (arrayBytes fs ++ q) :: gs, ?_, .cons (reread₀_same _ ht) hs⟩
    have e1 := deserializeFilter_reread hf.toCleanStrings ht.no_zero (arrayBytes fs ++ q)
    rw [show arrayBytes (f :: fs) ++ q = ruleBytes (writtenText f) f ++ (arrayBytes fs ++ q) by simp [arrayBytes]]
    simp only [List.length_cons, deserializeFilters, e1, Res.bind_ok, e, Res.pure_eq]

/-! #### entries of hash sets -/

/-- The rule read back from `entryBytes text f ++ q`. -/
def rereadEntry₀ (text : Bytes) (f : Filter) (q : Ptr) : Filter where
  borrowed := true
  filterType := f.filterType
  filterOption := f.filterOption
  antiFilterOption := f.antiFilterOption
  data := some (text ++ (f.host.getD [] ++ 0 :: (listBytes f ++ q)))
  dataLen := some text.length
  tag := rereadTag f
  domainList := orNull (rereadDomains f)
  host := orNull (f.host.getD [])

theorem Filter.deserialize_reread {f : Filter} (h : CleanStrings f) {text : Bytes} (hl : text.length < 2 ^ 31) (q : Ptr)
    (size : Nat) (hsize : (entryBytes text f).length ≤ size) :
    Filter.deserialize (entryBytes text f ++ q) size = .ok (some (rereadEntry₀ text f q, (entryBytes text f).length)) := by
  have hs := fmtXs_no_zero [BitVec.ofNat 32 text.length, f.filterType, f.filterOption, f.antiFilterOption]
  have hsl := fmtXs_length [BitVec.ofNat 32 text.length, f.filterType, f.filterOption, f.antiFilterOption]
  have e : entryBytes text f ++ q = fmtXs [BitVec.ofNat 32 text.length, f.filterType, f.filterOption, f.antiFilterOption] ++
      0 :: (text ++ (f.host.getD [] ++ 0 :: (listBytes f ++ q))) := by simp [entryBytes]
  have hlen : (entryBytes text f).length = (fmtXs [BitVec.ofNat 32 text.length, f.filterType, f.filterOption, f.antiFilterOption]).length +
      1 + text.length + (f.host.getD []).length + 1 + (listBytes f).length := by
    simp [entryBytes]
    omega
  have hlb : 0 < (listBytes f).length := by simp [listBytes]; omega
  rw [hlen] at hsize
  unfold Filter.deserialize
  rw [e, hasNewlineBefore_append (by omega) hs]
  simp only [Res.bind_ok, Bool.not_true, Bool.false_eq_true, if_false]
  rw [cstrAt_cstr hs]
  simp only [Res.bind_ok]
  rw [scanXs_fmtXs [BitVec.ofNat 32 text.length, f.filterType, f.filterOption, f.antiFilterOption] [0, 0, 0, 0] rfl]
  simp only [List.getD_cons_zero, List.getD_cons_succ, BitVec.toNat_ofNat]
  rw [Nat.mod_eq_of_lt (by omega : text.length < 2 ^ 32)]
  simp at hsl
  rw [add32_of_lt (by omega), if_neg (by omega), drop_string]
  rw [show ∀ s r : Bytes, ∀ t : Bytes, List.drop (s.length + 1 + t.length) (s ++ 0 :: (t ++ r)) = r from fun s r t => by
    rw [show s ++ 0 :: (t ++ r) = (s ++ 0 :: t) ++ r by simp]; exact List.drop_left' (by simp; omega)]
  simp only [takeString_eq (getD_host_clean h), Res.bind_ok, takeTag_reread h, takeString_eq (rereadDomains_clean h),
    Res.pure_eq, hl, if_true, rereadEntry₀]
  congr 3
  rw [hlen]
  simp
  omega

theorem rereadEntry₀_same {f : Filter} (q : Ptr) {text : Bytes} (ht : HasBareText f text) :
    SameEntry (rereadEntry f) (rereadEntry₀ text f q) := by
  refine { kind := rfl, options := rfl, antiOptions := rfl, tag := rfl, domainList := rfl, host := ?_, text := ?_ }
  · simp [rereadEntry₀, orNull_getD, rereadEntry]
  · intro pat hp
    have hf : HasBareText f pat := hp
    have e : pat = text := by
      have h1 := rawData_bare hf
      rw [rawData_bare ht] at h1
      cases h1
      rfl
    subst e
    exact ⟨hf.1, ⟨_, rfl⟩, rfl⟩

theorem entry_rereads {f : Filter} (h : CleanEntry f) :
    ItemReads Filter.deserialize (fun f g => SameEntry (rereadEntry f) g) f (entryBytes (entryText f) f) := by
  obtain ⟨text, ht, hl⟩ := h.text
  rw [entryText_eq ht]
  refine ⟨?_, fun q size hs => ⟨_, Filter.deserialize_reread h.toCleanStrings hl q size hs, rereadEntry₀_same q ht⟩⟩
  simp only [entryBytes, List.append_assoc]
  exact fmtXs_head _ _ _

/-! #### which rules survive -/

/-- a list of domains which survives is storable -/
theorem storable_of_same {f : Filter} (h : CleanStrings f) (hd : (rereadEntry f).domainList = f.domainList) :
    StorableOptions f := by
  refine ⟨h.tag, fun dl e => ⟨h.domains dl e, ?_, fun ht hp => ?_⟩, h.host⟩
  · rintro rfl
    rw [e] at hd
    have : rereadDomains f = [] := by
      unfold rereadDomains
      rw [if_neg (fun hl => by have := hl.2; rw [e] at this; simp at this), e]
      rfl
    simp [rereadEntry, this] at hd
  · have hl : LooksTagged f := ⟨ht, by rw [e]; exact hp⟩
    have hr : rereadDomains f = afterComma (dl.drop 2) := by unfold rereadDomains; rw [if_pos hl, e]; rfl
    have hlen : (rereadDomains f).length < dl.length := by
      obtain ⟨s, rfl⟩ := hp
      rw [hr]
      unfold afterComma
      split
      · have := (List.dropWhile_sublist (fun c => c != ch%',') (l := (bs%"~#" ++ s).drop 2)).length_le
        simp at this ⊢
        omega
      · simp
        omega
    rw [e] at hd
    simp only [rereadEntry] at hd
    split at hd
    · cases hd
    · cases hd
      exact absurd hlen (by simp)

theorem rereadEntry_eq {f : Filter} (h : StorableOptions f) : rereadEntry f = f := by
  have hl : ¬ LooksTagged f := by
    rintro ⟨ht, hp⟩
    cases e : f.domainList with
    | none => simp [e] at hp
    | some dl => rw [e] at hp; exact (h.domains dl e).2.2 ht hp
  have hd : (if rereadDomains f = [] then none else some (rereadDomains f)) = f.domainList := by
    unfold rereadDomains
    rw [if_neg hl]
    exact orNull_some (domains_ne h)
  unfold rereadEntry
  rw [hd, show rereadTag f = f.tag by unfold rereadTag; rw [if_neg hl]]

theorem rereadRule_eq {f : Filter} (h : StorableRule f) : rereadRule f = f := by
  have hd : (rereadRule f).data = f.data := by
    rcases h.text with hn | ⟨pat, hp, hne⟩
    · simp [rereadRule, hn]
    · exact (rereadRule_data (.inr hp)).2 hne
  have e : rereadRule f = { rereadEntry f with data := (rereadRule f).data } := rfl
  rw [e, hd, rereadEntry_eq h.toStorableOptions]

/-- A rule survives if and only if it can be represented. -/
theorem same_iff_storable {f g : Filter} (h : CleanRule f) (hg : SameRule (rereadRule f) g) :
    SameRule f g ↔ StorableRule f := by
  refine ⟨fun hs => ⟨storable_of_same h.toCleanStrings ?_, ?_⟩, fun hs => by rwa [rereadRule_eq hs] at hg⟩
  · exact hg.domainList.symm.trans hs.domainList
  · rcases h.text with hn | ⟨pat, hp⟩
    · exact .inl hn
    · refine .inr ⟨pat, hp, ?_⟩
      rintro rfl
      have h1 := hg.noText ((rereadRule_data (.inr hp)).1 rfl)
      obtain ⟨_, ⟨r, hr⟩, _⟩ := hs.text [] hp
      simp [h1] at hr

theorem same_entry_iff {f g : Filter} (h : CleanEntry f) (hg : SameEntry (rereadEntry f) g) :
    SameEntry f g ↔ StorableEntry f := by
  refine ⟨fun hs => ⟨storable_of_same h.toCleanStrings ?_, h.text⟩, fun hs => ?_⟩
  · exact hg.domainList.symm.trans hs.domainList
  · rwa [rereadEntry_eq hs.toStorableOptions] at hg

theorem pointwise_iff {A B : Type} {R S : A → B → Prop} {P : A → Prop} {l : List A} {m : List B} (h : Pointwise R l m)
    (hk : ∀ a ∈ l, ∀ b, R a b → (S a b ↔ P a)) : Pointwise S l m ↔ ∀ a ∈ l, P a := by
  induction h with
  | nil => exact ⟨fun _ => by simp, fun _ => .nil⟩
  | cons hr _ ih =>
    have ih := ih fun a ha => hk a (by simp [ha])
    constructor
    · intro h
      cases h with
      | cons h1 h2 =>
        intro a ha
        rcases List.mem_cons.1 ha with rfl | ha
        · exact (hk _ (by simp) _ hr).1 h1
        · exact ih.1 h2 a ha
    · intro h
      exact .cons ((hk _ (by simp) _ hr).2 (h _ (by simp))) (ih.2 fun a ha => h a (by simp [ha]))

theorem pointwise_map {A B C : Type} {R : C → B → Prop} {g : A → C} {l : List A} {m : List B}
    (h : Pointwise (fun a b => R (g a) b) l m) : Pointwise R (l.map g) m := by
  induction h with
  | nil => exact .nil
  | cons h _ ih => exact .cons h ih

/-! #### clients -/

theorem readLists_reread {ls : List (List Filter)} (h : ∀ l ∈ ls, ∀ f ∈ l, CleanRule f) (q : Ptr) :
    ∃ ms, readLists (ls.map List.length) (ls.flatMap arrayBytes ++ q) = .ok (ms, q) ∧
      Pointwise (Pointwise fun f g => SameRule (rereadRule f) g) ls ms := by
  induction ls with
  | nil => exact ⟨[], rfl, .nil⟩
  | cons l ls ih =>
    obtain ⟨ms, e, hr⟩ := ih fun m hm => h m (by simp [hm])
    obtain ⟨gs, e', hr'⟩ := deserializeFilters_reread (h l (by simp)) (ls.flatMap arrayBytes ++ q)
    refine ⟨gs :: ms, ?_, .cons hr' hr⟩
    rw [List.flatMap_cons, List.append_assoc]
    simp only [List.map_cons, readLists, e', Res.bind_ok, e, Res.pure_eq]

theorem initHost_reread {s : Option (HSet Filter)} (h : ∀ t, s = some t → StorableSet CleanEntry t) (q : Ptr) :
    ∃ t, initHashSet Filter.deserialize (hostBytes s ++ q) (hostBytes s).length = .ok (some t) ∧
      SamePointer (SameSet fun f g => SameEntry (rereadEntry f) g) s t := by
  cases s with
  | none => exact ⟨none, rfl, .null⟩
  | some s =>
    have hs := h s rfl
    obtain ⟨t, e, hr⟩ := HSet.deserialize_eq (s := s) (enc := fun f => entryBytes (entryText f) f)
      (fun i hi x hx => entry_rereads (hs.entries i hi x hx)) hs.count.1 hs.count.2 q
    refine ⟨some t, ?_, .some hr⟩
    simp only [initHashSet, hostBytes, setBytes_ne_nil, if_false, e, Res.bind_ok, Res.pure_eq]

theorem samePointer_map {s t : Option (HSet Filter)}
    (h : SamePointer (SameSet fun f g => SameEntry (rereadEntry f) g) s t) :
    SamePointer (SameSet SameEntry) (s.map (mapSet rereadEntry)) t := by
  cases h with
  | null => exact .null
  | some h => exact .some ⟨h.count, fun i hi => pointwise_map (h.bucket i hi)⟩

/-- an item of a set is no larger than the set -/
theorem item_length {T : Type} {enc : T → Bytes} {s : HSet T} {i : Nat} (hi : i < s.count) {x : T} (hx : x ∈ s.bucket i) :
    (enc x).length ≤ (setBytes enc s).length := by
  have h1 := mem_length_flatMap (g := enc) hx
  have h2 : ((s.bucket i).flatMap enc ++ [(0 : UInt8)]).length ≤ (bucketBytes enc s.buckets).length :=
    mem_length_flatMap (g := fun b => b.flatMap enc ++ [0]) (l := s.buckets) (x := s.bucket i)
      (List.mem_map.2 ⟨i, List.mem_range.2 hi, rfl⟩)
  simp only [List.length_append, List.length_cons, List.length_nil] at h2
  simp only [setBytes, List.length_append, List.length_cons, List.length_nil]
  omega

theorem section_length {E} {c : Client E} {ic ih : Bool} {s : Bytes} (h : s ∈ c.sections) :
    s.length ≤ (c.bytes ic ih).length := by
  have := mem_length_flatMap (g := id) h
  rw [List.flatMap_id] at this
  simp only [Client.bytes, List.length_append, id] at this ⊢
  omega

/-- What the data of a client must be to be readable. -/
structure ReadableClient {E : Env} (ic ih : Bool) (c : Client E) : Prop where
  counters : c.numHostAnchoredFilters < 2 ^ 31 ∧ c.numHostAnchoredExceptionFilters < 2 ^ 31
  rules : ∀ l ∈ c.arrays ic ih, ∀ f ∈ l, CleanRule f
  hostSet : ∀ s, c.hostSet = some s → StorableSet CleanEntry s
  hostExceptionSet : ∀ s, c.hostExceptionSet = some s → StorableSet CleanEntry s
  domSets : ∀ d s, c.domSets d = some s → StorableSet (fun x => x.length < 2 ^ 31) s

/-- An entry of the hash sets for hosts, whether it was read from a list or from data. -/
structure HostEntry (f : Filter) : Prop where
  strings : CleanStrings f
  text : ∃ pat, 0 ∉ pat ∧ f.data = some pat ∧ f.dataLen = some pat.length

/-- What holds of clients that have loaded lists, and still does when their rules are replaced by what is read back of them. -/
structure Sane {E : Env} (c : Client E) : Prop where
  rules : ∀ id, ∀ f ∈ c.lists id, CleanRule f
  hosts : ∀ s t, c.hs s = some t → ∀ i, ∀ f ∈ t.bucket i, HostEntry f
  sized : Sized c.startBuild
  ready : c.bloom.isSome = true ∧ c.exceptionBloom.isSome = true ∨ (∀ id, c.lists id = []) ∧ ∀ s, c.hs s = none

theorem cleanRule_of {f : Filter} (hp : Parsed f) (hc : Clean f) : CleanRule f := by
  refine ⟨⟨hc.tag, hc.domains, hc.host⟩, ?_⟩
  rcases hp.text with h | ⟨pat, h0, h⟩
  · exact .inl h
  · exact .inr ⟨pat, h0, ⟨[], h⟩, .inl hp.dataLen⟩

theorem hostEntry_of {f : Filter} (hp : Parsed f) (hc : Clean f) (hd : f.data ≠ none) : HostEntry f.bare := by
  rcases hp.text with h | ⟨pat, h0, h⟩
  · exact absurd h hd
  · rw [bare_of_text h]
    exact ⟨⟨hc.tag, hc.domains, hc.host⟩, pat, h0, rfl, rfl⟩

theorem history_sane {E : Env} {c : Client E} {fs : List Filter} (hist : History E c fs) : Sane c := by
  have hh := history_holds hist
  have hcl := history_clean hist
  refine ⟨fun id f hf => ?_, fun s t ht i f hf => ?_, history_sized hist, ?_⟩
  · have hm := (hh.mem.1 hf).1
    exact cleanRule_of (hh.index.parsed f hm) (hcl f hm)
  · obtain ⟨g, hg, hd, rfl⟩ := mem_bare ((hh.hosts ht).sub i f hf)
    exact hostEntry_of (hh.index.parsed g hg) (hcl g hg) hd
  · rcases hh.ready with hr | ⟨rfl, _, h, _⟩
    · exact .inl ⟨hr.bl false, hr.bl true⟩
    · refine .inr ⟨fun id => ?_, h⟩
      apply List.eq_nil_iff_forall_not_mem.2
      intro f hf
      have := (hh.mem.1 hf).1
      simp at this

/-- Such a client needs to be nothing but small. -/
theorem sane_readable {E : Env} {c : Client E} (h : Sane c) {ic ih : Bool}
    (hn : c.numHostAnchoredFilters < 2 ^ 31 ∧ c.numHostAnchoredExceptionFilters < 2 ^ 31)
    (hs : (c.bytes ic ih).length < 2 ^ 31) : ReadableClient ic ih c := by
  have hsz := h.sized
  have entry : ∀ s t, c.hs s = some t → ∀ i, i < t.count → ∀ g ∈ t.bucket i, CleanEntry g := by
    intro s t ht i hi g hg
    have hl := item_length (enc := fun f => entryBytes (entryText f) f) hi hg
    have hb : (setBytes (fun f => entryBytes (entryText f) f) t).length < 2 ^ 31 := by
      have : hostBytes (c.hs s) ∈ c.sections := by
        cases s <;> simp [Client.sections, Client.hs]
      have := section_length (ic := ic) (ih := ih) this
      rw [ht] at this
      simp only [hostBytes] at this
      omega
    obtain ⟨hc, pat, h0, hd, hdl⟩ := h.hosts s t ht i g hg
    have hp : HasBareText g pat := ⟨h0, ⟨[], by simpa using hd⟩, hdl⟩
    rw [entryText_eq hp] at hl
    refine ⟨hc, pat, hp, Nat.lt_of_le_of_lt (Nat.le_trans ?_ hl) hb⟩
    simp [entryBytes]
    omega
  have hcount : ∀ t, c.hostSet = some t → 0 < t.count ∧ t.count < 2 ^ 32 := by
    intro t ht
    have := hsz.hostSet
    simpa [Client.startBuild, ht] using this
  have hcount' : ∀ t, c.hostExceptionSet = some t → 0 < t.count ∧ t.count < 2 ^ 32 := by
    intro t ht
    have := hsz.hostExceptionSet
    simpa [Client.startBuild, ht] using this
  have hrules : ∀ l ∈ c.arrays ic ih, ∀ f ∈ l, CleanRule f := by
    intro l hl f hf
    obtain ⟨id, _, rfl⟩ := List.mem_map.1 hl
    rw [storedList_kept] at hf
    have hf : f ∈ c.lists id := by
      unfold kept at hf
      split at hf
      · cases hf
      · exact hf
    exact h.rules id f hf
  have hdom : ∀ d s, c.domSets d = some s → StorableSet (fun x => x.length < 2 ^ 31) s := by
    intro d s hd
    refine ⟨?_, fun i hi x hx => ?_⟩
    · have := hsz.domSets d
      simpa [Client.startBuild, hd] using this
    · have h1 := item_length (enc := domainBytes) hi hx
      have h2 : domBytes (c.domSets d) ∈ c.sections := by
        cases d <;> simp [Client.sections, storedSets]
      have h2 := section_length (ic := ic) (ih := ih) h2
      rw [hd] at h2
      simp only [domBytes] at h2
      refine Nat.lt_of_le_of_lt (Nat.le_trans ?_ h1) (Nat.lt_of_le_of_lt h2 hs)
      simp [domainBytes]
      omega
  exact ⟨hn, hrules, fun t ht => ⟨hcount t ht, entry false t ht⟩, fun t ht => ⟨hcount' t ht, entry true t ht⟩, hdom⟩

/-- A reached client needs to be nothing but small. -/
theorem history_readable {E : Env} {c : Client E} {fs : List Filter} (hist : History E c fs) {ic ih : Bool}
    (hn : c.numHostAnchoredFilters < 2 ^ 31 ∧ c.numHostAnchoredExceptionFilters < 2 ^ 31)
    (hs : (c.bytes ic ih).length < 2 ^ 31) : ReadableClient ic ih c := sane_readable (history_sane hist) hn hs

/-- The client that reads the data. -/
theorem sane_reread {E : Env} {c : Client E} (h : Sane c) {ic ih : Bool}
    (hn : c.numHostAnchoredFilters < 2 ^ 31 ∧ c.numHostAnchoredExceptionFilters < 2 ^ 31)
    (hs : (c.bytes ic ih).length < 2 ^ 31) (d : Client E) (q : Ptr) :
    ∃ d', d.deserialize (c.bytes ic ih ++ q) = .ok (some d') ∧ SameClient ic ih (rereadClient c) d' ∧
      d'.tags = d.tags ∧ d'.stats = {} ∧ d'.badFps = none := by
  have h := sane_readable h hn hs
  obtain ⟨d', h0, h1, h2, h3, h4, h5, h6, h7, h8, h9, h10, h11⟩ := deserialize_with hn hs (readLists_reread h.rules)
    (initHost_reread h.hostSet)
    (initHost_reread h.hostExceptionSet) h.domSets d q
  refine ⟨d', h0, ⟨fun id => ?_, h2, h3, h4, h5, samePointer_map h6, samePointer_map h7, h8⟩, h9, h10, h11⟩
  have : kept ic ih (rereadClient c) id = (kept ic ih c id).map rereadRule := by
    unfold kept
    split <;> rfl
  rw [this]
  exact pointwise_map (h1 id)

/-- The client that reads the data of a reached client. -/
theorem history_reread {E : Env} {c : Client E} {fs : List Filter} (hist : History E c fs) {ic ih : Bool}
    (hn : c.numHostAnchoredFilters < 2 ^ 31 ∧ c.numHostAnchoredExceptionFilters < 2 ^ 31)
    (hs : (c.bytes ic ih).length < 2 ^ 31) (d : Client E) (q : Ptr) :
    ∃ d', d.deserialize (c.bytes ic ih ++ q) = .ok (some d') ∧ SameClient ic ih (rereadClient c) d' ∧
      d'.tags = d.tags ∧ d'.stats = {} ∧ d'.badFps = none := sane_reread (history_sane hist) hn hs d q

/-- What the comparison of answers needs to know about the client with the rules read back. -/
theorem reread_comparable {E : Env} {c : Client E} (h : Comparable c) : Comparable (rereadClient c) := by
  have set : ∀ {s : Option (HSet Filter)}, (∀ t, s = some t → BareSet t) → ∀ t, s.map (mapSet rereadEntry) = some t → BareSet t := by
    intro s h t ht
    cases s with
    | none => cases ht
    | some s =>
      cases ht
      obtain ⟨h1, h2⟩ := h s rfl
      refine ⟨h1, fun i hi f hf => ?_⟩
      obtain ⟨f', hf', rfl⟩ := List.mem_map.1 hf
      exact h2 i hi f' hf'
  refine ⟨fun id f hf => ?_, set h.hostSet, set h.hostExceptionSet, h.domSets⟩
  obtain ⟨f', hf', rfl⟩ := List.mem_map.1 hf
  rcases h.rules id f' hf' with hn | ⟨pat, hp⟩
  · exact .inl (by simp [rereadRule, hn])
  · by_cases he : pat = []
    · exact .inl ((rereadRule_data (.inr hp)).1 he)
    · obtain ⟨h0, ⟨r, hr⟩, hl⟩ := hp
      refine .inr ⟨pat, h0, ⟨r, ?_⟩, hl⟩
      rw [(rereadRule_data (.inr ⟨h0, ⟨r, hr⟩, hl⟩)).2 he, hr]

/-- Such a client can be written. -/
theorem comparable_written {E : Env} {c : Client E} (h : Comparable c) : WrittenClient c where
  rules id f hf := by
    rcases h.rules id f hf with hn | ⟨pat, hp⟩
    · exact ⟨[], .inl ⟨hn, rfl⟩⟩
    · exact ⟨pat, .inr hp⟩
  hostSet s hs i hi f hf :=
    ((h.hostSet s hs).2 i hi f hf).imp fun _ ⟨h1, h2, h3⟩ => ⟨h1, ⟨[], by simpa using h2⟩, h3⟩
  hostExceptionSet s hs i hi f hf :=
    ((h.hostExceptionSet s hs).2 i hi f hf).imp fun _ ⟨h1, h2, h3⟩ => ⟨h1, ⟨[], by simpa using h2⟩, h3⟩

end AdBlock
