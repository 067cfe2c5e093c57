import Verif.Lemmas.Serialize
/-! Helper lemmas: reading back what has been written. -/
namespace AdBlock
open Spec

/-- The string read back, null if empty. -/
def orNull (s : Bytes) : Option Bytes := if s = [] then none else some s

theorem orNull_getD (s : Bytes) : (orNull s).getD [] = s := by
  unfold orNull
  split <;> simp_all

theorem orNull_some {o : Option Bytes} (h : o ≠ some []) : orNull (o.getD []) = o := by
  cases o with
  | none => rfl
  | some s => simp [orNull]; intro e; simp [e] at h

theorem takeString_eq {s : Bytes} (h : 0 ∉ s) (q : Ptr) : takeString (s ++ 0 :: q) = .ok (orNull s, q) := by
  simp only [takeString, cstrAt_cstr h, Res.bind_ok, Res.pure_eq, orNull]
  congr 2
  rw [show s ++ 0 :: q = (s ++ [0]) ++ q by simp]
  exact List.drop_left' (by simp)

theorem takeTag_tag {tag : Bytes} (h0 : 0 ∉ tag) (hc : ch%',' ∉ tag) (ht : tag ≠ []) {dl : Bytes} (hd : 0 ∉ dl) (q : Ptr) :
    takeTag (tagPart tag ++ (dl ++ 0 :: q)) = .ok (tag, dl ++ 0 :: q) := by
  have hs : 0 ∉ tag ++ ch%',' :: dl := by simp [h0, hd]
  have e : tagPart tag ++ (dl ++ 0 :: q) = ch%'~' :: ch%'#' :: ((tag ++ ch%',' :: dl) ++ 0 :: q) := by
    simp [tagPart, ht]
  have et : (tag ++ ch%',' :: dl).takeWhile (· != ch%',') = tag := by
    rw [List.takeWhile_append_of_pos (by intro a ha; simp; rintro rfl; exact hc ha)]
    simp
  rw [e]
  simp only [takeTag, rd_cons_zero, rd_cons_succ, Res.bind_ok, if_true, List.drop_succ_cons, List.drop_zero,
    cstrAt_cstr hs, et]
  rw [if_pos (by simp)]
  simp only [Res.pure_eq]
  congr 2
  rw [show 2 + (tag.length + 1) = tag.length + 1 + 1 + 1 by omega, List.drop_succ_cons, List.drop_succ_cons]
  rw [show (tag ++ ch%',' :: dl) ++ 0 :: q = (tag ++ [ch%',']) ++ (dl ++ 0 :: q) by simp]
  exact List.drop_left' (by simp)

theorem takeTag_none {dl : Bytes} (hp : ¬ bs%"~#" <+: dl) (q : Ptr) : takeTag (dl ++ 0 :: q) = .ok ([], dl ++ 0 :: q) := by
  cases dl with
  | nil => simp [takeTag]
  | cons a dl =>
    by_cases ha : a = ch%'~'
    · subst ha
      cases dl with
      | nil => simp [takeTag]
      | cons b dl =>
        have hb : b ≠ ch%'#' := by
          rintro rfl
          exact hp ⟨dl, rfl⟩
        simp [takeTag, hb]
    · simp [takeTag, ha]

theorem takeTag_eq {f : Filter} (h : StorableOptions f) (q : Ptr) :
    takeTag (listBytes f ++ q) = .ok (f.tag, f.domainList.getD [] ++ 0 :: q) := by
  have hd : 0 ∉ f.domainList.getD [] := by
    cases e : f.domainList with
    | none => simp
    | some dl => exact (h.domains dl e).1
  rw [listBytes_eq, List.append_assoc, List.append_assoc]
  by_cases ht : f.tag = []
  · rw [ht]
    have := takeTag_none (dl := f.domainList.getD []) (by
      cases e : f.domainList with
      | none => simp
      | some dl => exact (h.domains dl e).2.2 ht) q
    simpa [tagPart] using this
  · exact takeTag_tag h.tag.1 h.tag.2 ht hd q

theorem getD_host {f : Filter} (h : StorableOptions f) : 0 ∉ f.host.getD [] := by
  cases e : f.host with
  | none => simp
  | some s => exact h.host s e

theorem getD_domains {f : Filter} (h : StorableOptions f) : 0 ∉ f.domainList.getD [] := by
  cases e : f.domainList with
  | none => simp
  | some s => exact (h.domains s e).1

theorem domains_ne {f : Filter} (h : StorableOptions f) : f.domainList ≠ some [] :=
  fun e => (h.domains [] e).2.1 rfl

/-- The rule read back from `ruleBytes text f ++ q`. -/
def readRule (text : Bytes) (f : Filter) (q : Ptr) : Filter where
  borrowed := true
  filterType := f.filterType
  filterOption := f.filterOption
  antiFilterOption := f.antiFilterOption
  data := (orNull text).map fun _ => text ++ 0 :: (listBytes f ++ f.host.getD [] ++ 0 :: q)
  tag := f.tag
  domainList := f.domainList
  host := orNull (f.host.getD [])

theorem deserializeFilter_eq {f : Filter} (h : StorableOptions f) {text : Bytes} (ht : 0 ∉ text) (q : Ptr) :
    deserializeFilter (ruleBytes text f ++ q) = .ok (readRule text f q, q) := by
  have hs := fmtXs_no_zero [f.filterType, f.filterOption, f.antiFilterOption]
  have e : ruleBytes text f ++ q = fmtXs [f.filterType, f.filterOption, f.antiFilterOption] ++
      0 :: (text ++ 0 :: (listBytes f ++ (f.host.getD [] ++ 0 :: q))) := by simp [ruleBytes]
  rw [e]
  unfold deserializeFilter
  rw [cstrAt_cstr hs]
  simp only [Res.bind_ok]
  rw [scanXs_fmtXs [f.filterType, f.filterOption, f.antiFilterOption] [0, 0, 0] rfl]
  rw [show ∀ (s : Bytes) (r : Bytes), List.drop (s.length + 1) (s ++ 0 :: r) = r from fun s r => by
    rw [show s ++ 0 :: r = (s ++ [0]) ++ r by simp]; exact List.drop_left' (by simp)]
  simp only [takeString_eq ht, Res.bind_ok, takeTag_eq h, takeString_eq (getD_domains h), takeString_eq (getD_host h),
    Res.pure_eq, readRule, orNull_some (domains_ne h)]
  simp

theorem readRule_same {f : Filter} (h : StorableRule f) (q : Ptr) {text : Bytes} (ht : ArrayText f text) :
    SameRule f (readRule text f q) := by
  refine { kind := rfl, options := rfl, antiOptions := rfl, tag := rfl, domainList := rfl, host := ?_, noText := ?_, text := ?_ }
  · simp [readRule, orNull_getD]
  · intro hn
    rcases ht with ⟨_, rfl⟩ | ⟨_, ⟨r, hr⟩, _⟩
    · simp [readRule, orNull]
    · simp [hn] at hr
  · intro pat hp
    have e : text = pat := by
      rw [← ht.written]
      exact ArrayText.written (.inr hp)
    subst e
    have hne : text ≠ [] := by
      rcases h.text with hn | ⟨pat, hpat, hne⟩
      · obtain ⟨_, ⟨r, hr⟩, _⟩ := hp
        simp [hn] at hr
      · have : pat = text := by
          rw [← ArrayText.written (.inr hpat)]
          exact ArrayText.written (.inr hp)
        rwa [← this]
    exact ⟨hp.1, ⟨listBytes f ++ f.host.getD [] ++ 0 :: q, by simp [readRule, orNull, hne]⟩, .inl rfl⟩

theorem storable_written {f : Filter} (h : StorableRule f) : Written f := by
  rcases h.text with h | ⟨pat, h, _⟩
  · exact ⟨[], .inl ⟨h, rfl⟩⟩
  · exact ⟨pat, .inr h⟩

theorem ArrayText.no_zero {f : Filter} {text : Bytes} (h : ArrayText f text) : 0 ∉ text := by
  rcases h with ⟨_, rfl⟩ | h
  · simp
  · exact h.1

theorem deserializeFilters_eq {fs : List Filter} (h : ∀ f ∈ fs, StorableRule f) (q : Ptr) :
    ∃ gs, deserializeFilters fs.length (arrayBytes fs ++ q) = .ok (gs, q) ∧ Pointwise SameRule fs gs := by
  induction fs with
  | nil => exact ⟨[], by simp [deserializeFilters, arrayBytes], .nil⟩
  | cons f fs ih =>
    obtain ⟨gs, e, hs⟩ := ih fun g hg => h g (by simp [hg])
    have hf := h f (by simp)
    have ht := (storable_written hf).text
    refine ⟨readRule (writtenText f) f (arrayBytes fs ++ q) :: gs, ?_, .cons (readRule_same hf _ ht) hs⟩
    have e1 := deserializeFilter_eq hf.toStorableOptions ht.no_zero (arrayBytes fs ++ q)
    rw [show arrayBytes (f :: fs) ++ q = ruleBytes (writtenText f) f ++ (arrayBytes fs ++ q) by simp [arrayBytes]]
    simp only [List.length_cons, deserializeFilters, e1, Res.bind_ok, e, Res.pure_eq]

/-! #### entries of hash sets -/

theorem hasNewlineBefore_append {s : Bytes} {q : Ptr} {size : Nat} (h : s.length < size) (h0 : 0 ∉ s) :
    hasNewlineBefore (s ++ 0 :: q) size = .ok true := by
  induction s generalizing size with
  | nil =>
    cases size with
    | zero => simp at h
    | succ n => simp [hasNewlineBefore]
  | cons c s ih =>
    cases size with
    | zero => simp at h
    | succ n =>
      have hc : c ≠ 0 := fun e => h0 (by simp [e])
      simp only [List.cons_append, hasNewlineBefore, hc, if_false]
      exact ih (by simpa using h) (fun e => h0 (by simp [e]))

theorem add32_of_lt {a b : Nat} (h : a + b < 2 ^ 32) : add32 a b = a + b := Nat.mod_eq_of_lt h

/-- The rule read back from `entryBytes text f ++ q`. -/
def readEntry (text : Bytes) (f : Filter) (q : Ptr) : Filter where
  borrowed := true
  filterType := f.filterType
  filterOption := f.filterOption
  antiFilterOption := f.antiFilterOption
  data := some (text ++ (f.host.getD [] ++ 0 :: (listBytes f ++ q)))
  dataLen := some text.length
  tag := f.tag
  domainList := f.domainList
  host := orNull (f.host.getD [])

theorem drop_string (s r : Bytes) : List.drop (s.length + 1) (s ++ 0 :: r) = r := by
  rw [show s ++ 0 :: r = (s ++ [0]) ++ r by simp]
  exact List.drop_left' (by simp)

theorem Filter.deserialize_eq {f : Filter} (h : StorableOptions f) {text : Bytes} (hl : text.length < 2 ^ 31) (q : Ptr)
    (size : Nat) (hsize : (entryBytes text f).length ≤ size) :
    Filter.deserialize (entryBytes text f ++ q) size = .ok (some (readEntry text f q, (entryBytes text f).length)) := by
  have hs := fmtXs_no_zero [BitVec.ofNat 32 text.length, f.filterType, f.filterOption, f.antiFilterOption]
  have hsl := fmtXs_length [BitVec.ofNat 32 text.length, f.filterType, f.filterOption, f.antiFilterOption]
  have e : entryBytes text f ++ q = fmtXs [BitVec.ofNat 32 text.length, f.filterType, f.filterOption, f.antiFilterOption] ++
      0 :: (text ++ (f.host.getD [] ++ 0 :: (listBytes f ++ q))) := by simp [entryBytes]
  have hlen : (entryBytes text f).length = (fmtXs [BitVec.ofNat 32 text.length, f.filterType, f.filterOption, f.antiFilterOption]).length +
      1 + text.length + (f.host.getD []).length + 1 + (listBytes f).length := by
    simp [entryBytes]
    omega
  have hlb : 0 < (listBytes f).length := by simp [listBytes]; omega
  rw [hlen] at hsize
  unfold Filter.deserialize
  rw [e, hasNewlineBefore_append (by omega) hs]
  simp only [Res.bind_ok, Bool.not_true, Bool.false_eq_true, if_false]
  rw [cstrAt_cstr hs]
  simp only [Res.bind_ok]
  rw [scanXs_fmtXs [BitVec.ofNat 32 text.length, f.filterType, f.filterOption, f.antiFilterOption] [0, 0, 0, 0] rfl]
  simp only [List.getD_cons_zero, List.getD_cons_succ, BitVec.toNat_ofNat]
  rw [Nat.mod_eq_of_lt (by omega : text.length < 2 ^ 32)]
  simp at hsl
  rw [add32_of_lt (by omega), if_neg (by omega), drop_string]
  rw [show ∀ s r : Bytes, ∀ t : Bytes, List.drop (s.length + 1 + t.length) (s ++ 0 :: (t ++ r)) = r from fun s r t => by
    rw [show s ++ 0 :: (t ++ r) = (s ++ 0 :: t) ++ r by simp]; exact List.drop_left' (by simp; omega)]
  simp only [takeString_eq (getD_host h), Res.bind_ok, takeTag_eq h, takeString_eq (getD_domains h), Res.pure_eq, hl,
    if_true, orNull_some (domains_ne h), readEntry]
  congr 3
  rw [hlen]
  simp
  omega

theorem readEntry_same {f : Filter} (q : Ptr) {text : Bytes} (ht : HasBareText f text) :
    SameEntry f (readEntry text f q) := by
  refine { kind := rfl, options := rfl, antiOptions := rfl, tag := rfl, domainList := rfl, host := ?_, text := ?_ }
  · simp [readEntry, orNull_getD]
  · intro pat hp
    have e : pat = text := by
      have h1 := rawData_bare hp
      rw [rawData_bare ht] at h1
      cases h1
      rfl
    subst e
    exact ⟨hp.1, ⟨_, rfl⟩, rfl⟩

theorem deserializeDomain_eq {d : Bytes} (hl : d.length < 2 ^ 31) (q : Ptr) (size : Nat)
    (hsize : (domainBytes d).length ≤ size) :
    deserializeDomain (domainBytes d ++ q) size = .ok (some (d, (domainBytes d).length)) := by
  have hs : 0 ∉ fmtX (BitVec.ofNat 32 d.length) ++ bs%"x" := by
    have := fmtX_no_zero (BitVec.ofNat 32 d.length)
    simp [this]
  have hsl := fmtX_length (BitVec.ofNat 32 d.length)
  have e : domainBytes d ++ q = (fmtX (BitVec.ofNat 32 d.length) ++ bs%"x") ++ 0 :: (d ++ 0 :: q) := by simp [domainBytes]
  have hlen : (domainBytes d).length = (fmtX (BitVec.ofNat 32 d.length) ++ bs%"x").length + 1 + d.length + 1 := by
    simp [domainBytes]
    omega
  have hlen' : (fmtX (BitVec.ofNat 32 d.length) ++ bs%"x").length ≤ 9 := by simp; omega
  rw [hlen] at hsize
  have hscan : (scanXs [0] (fmtX (BitVec.ofNat 32 d.length) ++ bs%"x")).getD 0 0 = BitVec.ofNat 32 d.length := by
    by_cases hz : BitVec.ofNat 32 d.length = 0
    · rw [hz]; decide
    · simp [scanXs, scanX_fmtX _ bs%"x" (by decide) (.inl hz)]
  unfold deserializeDomain
  rw [e, cstrAt_cstr hs]
  simp only [Res.bind_ok, hscan, BitVec.toNat_ofNat]
  rw [Nat.mod_eq_of_lt (by omega : d.length < 2 ^ 32), add32_of_lt (by omega), if_neg (by omega), add32_of_lt (by omega),
    drop_string, hlen]
  simp

end AdBlock
