import Verif.SpecSaved
import Verif.Model.Toy
import Verif.Lemmas.SerializeHistory
import Verif.Lemmas.ParseSafe
/-
How large a rule, the structures of a client and the data it writes can be, given the text that was
loaded.
-/
namespace AdBlock
open Spec

/-! #### rules -/

/-- no part of the rule is longer than `n` -/
structure Small (n : Nat) (f : Filter) : Prop where
  tag : f.tag.length ≤ n
  domains : (f.domainList.getD []).length ≤ n
  host : (f.host.getD []).length ≤ n
  data : ∀ d, f.data = some d → d.length ≤ n + 1

theorem small_empty (n : Nat) : Small n {} := ⟨Nat.zero_le _, Nat.zero_le _, Nat.zero_le _, fun _ h => by cases h⟩

theorem parseOption_small {n : Nat} {f : Filter} (h : Small n f) {o : Bytes} (ho : o.length ≤ n) : Small n (f.parseOption o) := by
  simp only [Filter.parseOption]
  have hs : (if (o.head? == some ch%'~') = true then o.drop 1 else o).length ≤ n := by
    split
    · simp; omega
    · exact ho
  generalize (if (o.head? == some ch%'~') = true then o.drop 1 else o) = s at hs
  split
  · exact ⟨h.tag, by simp; omega, h.host, h.data⟩
  split
  · exact ⟨by simp; omega, h.domains, h.host, h.data⟩
  split
  · exact ⟨h.tag, h.domains, h.host, h.data⟩
  · exact ⟨h.tag, h.domains, h.host, h.data⟩

theorem parseOptions_small {n : Nat} {f : Filter} (h : Small n f) {o : Bytes} (ho : o.length ≤ n) : Small n (f.parseOptions o) := by
  have key : ∀ (o cur : Bytes) (f : Filter), Small n f → cur.length + o.length ≤ n → Small n (f.parseOptionsLoop cur o) := by
    intro o
    induction o with
    | nil => intro cur f h hl; exact parseOption_small h (by simpa using hl)
    | cons c o ih =>
      intro cur f h hl
      simp only [List.length_cons] at hl
      simp only [Filter.parseOptionsLoop]
      split
      · exact parseOption_small h (by omega)
      split
      · exact ih _ _ (parseOption_small h (by omega)) (by simp; omega)
      · exact ih _ _ h (by simp; omega)
  exact key o [] _ ⟨h.tag, h.domains, h.host, h.data⟩ (by simpa using ho)

theorem Small.addType {n : Nat} {f : Filter} (h : Small n f) (m : Mask) : Small n (f.addType m) := ⟨h.tag, h.domains, h.host, h.data⟩

theorem Small.withType {n : Nat} {f : Filter} (h : Small n f) (m : Mask) : Small n { f with filterType := m } :=
  ⟨h.tag, h.domains, h.host, h.data⟩

/-- what the loop of the parser keeps -/
structure SmallLocals (n left : Nat) (s : PLocals) : Prop where
  f : Small n s.f
  data : s.data.length + left ≤ n

def SmallOut (n : Nat) : LoopOut → Prop
  | .ret f => Small n f
  | .fin s => SmallLocals n 0 s

def SmallNext (n left : Nat) : Next → Prop
  | .stop o => SmallOut n o
  | .one s => SmallLocals n left s
  | .two s => SmallLocals n (left + 1) s

theorem SmallLocals.takeDomains {n left : Nat} {s : PLocals} (h : SmallLocals n left s) : SmallLocals n left s.takeDomains := by
  unfold PLocals.takeDomains
  have := h.data
  split
  · exact ⟨⟨h.f.tag, by simp; omega, h.f.host, h.f.data⟩, by simp; omega⟩
  · exact h

theorem parseChar_small {line : Bytes} {t : Byte} {pr : Bool} {c : Byte} {p : Bytes} {s : PLocals} {n : Next}
    (h : SmallLocals line.length (p.length + 1) s) (hn : parseChar line t pr c p s = .ok n) :
    SmallNext line.length p.length n := by
  have hd := h.data
  have push : ∀ (s' : PLocals), s'.f = s.f → s'.data = s.data → SmallLocals line.length p.length (s'.push c) := by
    intro s' e1 e2
    exact ⟨by show Small _ s'.f; rw [e1]; exact h.f, by simp only [PLocals.push, List.length_append, List.length_singleton, e2]; omega⟩
  have keep : ∀ (s' : PLocals), Small line.length s'.f → s'.data = s.data → SmallLocals line.length p.length s' := by
    intro s' e1 e2
    exact ⟨e1, by rw [e2]; omega⟩
  unfold parseChar at hn
  split at hn
  · split at hn
    · cases hn; exact keep _ h.f rfl
    split at hn
    · obtain ⟨s1, h1, rfl⟩ := Res.map_eq_ok.1 hn
      unfold secondBar at h1
      obtain ⟨b, _, h1⟩ := Res.bind_eq_ok.1 h1
      cases h1
      have hs : Small line.length { s.f.addType FTHostAnchored with host := some (anchoredHost p) } := by
        refine ⟨h.f.tag, h.f.domains, ?_, h.f.data⟩
        show (anchoredHost p).length ≤ _
        unfold anchoredHost
        dsimp only
        rw [List.length_take]
        omega
      refine keep _ ?_ rfl
      dsimp only
      split
      · exact hs.addType _
      · exact hs
    · cases hn; exact keep _ (h.f.addType _) rfl
  split at hn
  · split at hn
    · cases hn; exact keep _ h.f rfl
    split at hn
    · cases hn; exact keep _ (h.f.withType _) rfl
    · cases hn; exact push s rfl rfl
  split at hn
  · split at hn
    · cases hn; exact h.f.withType _
    · cases hn; exact push s rfl rfl
  split at hn
  · split at hn
    · cases hn; exact keep _ h.f rfl
    · cases hn; exact push s rfl rfl
  split at hn
  · split at hn
    · split at hn
      · rename_i f hf
        cases hn
        unfold regexFilter at hf
        split at hf
        · cases hf
          refine ⟨h.f.tag, h.f.domains, h.f.host, fun d hd => ?_⟩
          cases hd
          simp only [cstr, List.length_append, List.length_singleton, List.length_take, List.length_drop]
          omega
        · cases hf
      · cases hn; exact push { s with st := .data } rfl rfl
    · cases hn; exact push s rfl rfl
  split at hn
  · split at hn
    · cases hn
      exact ⟨h.takeDomains.f.withType _, h.takeDomains.data⟩
    · cases hn
      exact ⟨parseOptions_small h.f (by omega), by simp only [PLocals.dollar]; omega⟩
  split at hn
  · split at hn
    · cases hn; exact h.f.withType _
    split at hn
    · cases hn
      exact ⟨h.takeDomains.f.withType _, h.takeDomains.data⟩
    · cases hn; exact push { s with st := .data } rfl rfl
  · cases hn; exact push { s with st := .data } rfl rfl

theorem parseLoop_small {line : Bytes} {t : Byte} {pr : Bool} {rest : Bytes} {pos : Nat} {s : PLocals} {o : LoopOut}
    (h : SmallLocals line.length rest.length s) (ho : parseLoop line t pr rest pos s = .ok o) : SmallOut line.length o := by
  have key : ∀ (k : Nat) (rest : Bytes), rest.length ≤ k → ∀ pos (s : PLocals), SmallLocals line.length rest.length s →
      parseLoop line t pr rest pos s = .ok o → SmallOut line.length o := by
    intro k
    induction k with
    | zero =>
      intro rest hk pos s h ho
      rw [List.length_eq_zero_iff.1 (Nat.le_zero.1 hk)] at h ho
      cases ho
      exact h
    | succ k ih =>
      intro rest hk pos s h ho
      cases rest with
      | nil => cases ho; exact h
      | cons c p =>
        unfold parseLoop at ho
        split at ho
        · cases ho; exact h.f
        obtain ⟨n, h1, ho⟩ := Res.bind_eq_ok.1 ho
        simp only [List.length_cons] at hk h
        have hn : SmallNext line.length p.length n := by
          unfold parseStep at h1
          split at h1
          · cases h1
            have := h.data
            exact ⟨h.f, by simp only [PLocals.push, List.length_append, List.length_singleton]; omega⟩
          · refine parseChar_small ?_ h1
            unfold PLocals.bar
            split
            · exact ⟨h.f.addType _, h.data⟩
            · exact h
        cases n with
        | stop o' => cases ho; exact hn
        | one s' => exact ih p (by omega) _ _ hn ho
        | two s' =>
          have hn : SmallLocals line.length (p.length + 1) s' := hn
          have := hn.data
          cases p with
          | nil => cases ho; exact ⟨hn.f, by omega⟩
          | cons d p' =>
            simp only [List.length_cons] at hk this
            exact ih p' (by omega) _ _ ⟨hn.f, by omega⟩ ho
  exact key _ rest (Nat.le_refl _) pos s h ho

theorem finishFilter_small {bad line : _} {pr full : Bool} {s : PLocals} {f : Filter} {e : Effect} {n : Nat} (h : SmallLocals n 0 s)
    (hf : finishFilter bad line pr full s = .ok (f, e)) : Small n f := by
  unfold finishFilter at hf
  split at hf
  · cases hf; exact h.f.withType _
  · rename_i hst
    have hf : finishFilter bad line pr full s = .ok (f, e) := by unfold finishFilter; rw [if_neg hst]; exact hf
    rw [finishFilter_eq _ _ _ _ hst] at hf
    obtain ⟨rfl, -⟩ := finishWith_effect (by simp [PLocals.result]) hf
    refine ⟨h.f.tag, h.f.domains, h.f.host, fun d hd => ?_⟩
    cases hd
    have := h.data
    simp only [cstr, List.length_append, List.length_singleton]
    omega

/-- No part of a rule is longer than the line it was read from. -/
theorem parseFilter_small {bad : List Bytes} {line : Bytes} {t : Byte} {pr full : Bool} {f : Filter} {e : Effect}
    (h : parseFilter bad line t pr full = .ok (f, e)) : Small line.length f := by
  unfold parseFilter at h
  obtain ⟨o, h1, h⟩ := Res.bind_eq_ok.1 h
  have ho := parseLoop_small (s := {}) ⟨small_empty _, by simp⟩ h1
  cases o with
  | ret g => cases h; exact ho
  | fin s => exact finishFilter_small ho h

/-! #### hash sets -/

theorem sum_range_le {f g : Nat → Nat} {k a : Nat} (h : ∀ i, f i ≤ g i + if i = k then a else 0) (n : Nat) :
    ((List.range n).map f).sum ≤ ((List.range n).map g).sum + if k < n then a else 0 := by
  induction n with
  | zero => simp
  | succ n ih =>
    simp only [List.range_succ, List.map_append, List.sum_append, List.map_cons, List.map_nil, List.sum_cons, List.sum_nil]
    have := h n
    split at this <;> split at ih <;> split <;> omega

theorem setBytes_length {T : Type} (enc : T → Bytes) (s : HSet T) :
    (setBytes enc s).length = (fmtX (BitVec.ofNat 32 s.count)).length + 1 +
      ((List.range s.count).map fun i => ((s.bucket i).flatMap enc).length + 1).sum := by
  simp only [setBytes, List.length_append, List.length_singleton, bucketBytes, HSet.buckets, List.length_flatMap, List.map_map]
  rfl

theorem setBytes_add {T : Type} (enc : T → Bytes) (eq : T → T → Bool) (hash : T → Nat) (s : HSet T) (x : T) :
    (setBytes enc (s.add eq hash x)).length ≤ (setBytes enc s).length + (enc x).length := by
  rw [setBytes_length, setBytes_length]
  have := sum_range_le (f := fun i => (((s.add eq hash x).bucket i).flatMap enc).length + 1)
    (g := fun i => ((s.bucket i).flatMap enc).length + 1) (k := hash x % s.count) (a := (enc x).length) (fun i => by
      unfold HSet.add
      dsimp only
      split
      · split
        · omega
        · simp only [List.flatMap_append, List.length_append, List.flatMap_cons, List.flatMap_nil, List.append_nil]; omega
      · omega) s.count
  have e : (s.add eq hash x).count = s.count := rfl
  rw [e]
  split at this <;> omega

theorem setBytes_new {T : Type} (enc : T → Bytes) (n : Nat) : (setBytes enc (HSet.new n)).length ≤ n + 9 := by
  rw [setBytes_length]
  have := fmtX_length (BitVec.ofNat 32 n)
  have : ((List.range n).map fun i => ((((HSet.new n : HSet T)).bucket i).flatMap enc).length + 1).sum = n := by
    have : ∀ k, ((List.range k).map fun _ => 1).sum = k := by
      intro k
      induction k with
      | zero => rfl
      | succ k ih => simp [List.range_succ, ih]
    simpa [HSet.new] using this n
  show (fmtX (BitVec.ofNat 32 n)).length + 1 + ((List.range n).map fun i => ((((HSet.new n : HSet T)).bucket i).flatMap enc).length + 1).sum ≤ _
  omega

theorem tagPart_length (tag : Bytes) : (tagPart tag).length ≤ tag.length + 3 := by
  unfold tagPart
  split
  · simp
  · simp

theorem cstrAt_length {d s : Bytes} (h : cstrAt d = .ok s) : s.length ≤ d.length := by
  induction d generalizing s with
  | nil => cases h
  | cons c d ih =>
    unfold cstrAt at h
    split at h
    · cases h; simp
    · obtain ⟨x, hx, rfl⟩ := Res.map_eq_ok.1 h
      have := ih hx
      simp only [List.length_cons]; omega

theorem ruleBytes_small {n : Nat} {f : Filter} (h : Small n f) : (ruleBytes (writtenText f) f).length ≤ 4 * n + 36 := by
  have h1 : (writtenText f).length ≤ n + 1 := by
    unfold writtenText dataString
    cases hd : f.data with
    | none => simp
    | some d =>
      have := h.data d hd
      dsimp only
      cases hc : cstrAt d with
      | ub u => simp
      | ok s => have := cstrAt_length hc; simp; omega
  have h2 := fmtXs_length [f.filterType, f.filterOption, f.antiFilterOption]
  have h3 := tagPart_length f.tag
  have := h.tag
  have := h.domains
  have := h.host
  simp only [ruleBytes, listBytes_eq, List.length_append, List.length_cons, List.length_nil] at h2 ⊢
  omega

theorem entryBytes_small {n : Nat} {f : Filter} (h : Small n f) : (entryBytes (entryText f) f).length ≤ 4 * n + 43 := by
  have h1 : (entryText f).length ≤ n + 1 := by
    unfold entryText Filter.rawData
    cases hd : f.data with
    | none =>
      cases f.dataLen with
      | none => simp
      | some k => cases k <;> simp
    | some d =>
      have := h.data d hd
      cases f.dataLen with
      | none => simp
      | some k =>
        dsimp only
        split
        · rename_i s hs
          split at hs
          · cases hs; simp; omega
          · cases hs
        · simp
  have h2 := fmtXs_length [BitVec.ofNat 32 (entryText f).length, f.filterType, f.filterOption, f.antiFilterOption]
  have h3 := tagPart_length f.tag
  have := h.tag
  have := h.domains
  have := h.host
  simp only [entryBytes, listBytes_eq, List.length_append, List.length_cons, List.length_nil] at h2 ⊢
  omega

theorem copy_small {n : Nat} {f g : Filter} (h : Small n f) (hc : f.copy = .ok g) : Small n g := by
  have key : ∀ k : Option Nat, (if f.borrowed then pure { f with dataLen := k } else
      pure { f with dataLen := k, data := f.data.map (·.take (k.getD 0)) } : Res Filter) = .ok g → Small n g := by
    intro k hc
    split at hc
    · cases hc; exact ⟨h.tag, h.domains, h.host, h.data⟩
    · cases hc
      refine ⟨h.tag, h.domains, h.host, fun d hd => ?_⟩
      obtain ⟨d', hd', rfl⟩ := Option.map_eq_some_iff.1 hd
      have := h.data d' hd'
      simp; omega
  unfold Filter.copy at hc
  dsimp only at hc
  split at hc
  · obtain ⟨k, _, hc⟩ := Res.bind_eq_ok.1 hc
    exact key _ hc
  · exact key _ hc

theorem domainBytes_length (d : Bytes) : (domainBytes d).length ≤ d.length + 11 := by
  have := fmtX_length (BitVec.ofNat 32 d.length)
  simp only [domainBytes, List.length_append, List.length_cons, List.length_nil]
  omega

theorem addDomains_size {E : Env} {ds : List Bytes} {s s' : HSet Bytes} (h : addDomains E ds s = .ok s') :
    (setBytes domainBytes s').length ≤ (setBytes domainBytes s).length + (ds.map fun d => d.length + 11).sum := by
  induction ds generalizing s with
  | nil => cases h; simp
  | cons d ds ih =>
    simp only [List.map_cons, List.sum_cons]
    unfold addDomains at h
    split at h
    · split at h
      · cases h
      · have := ih h
        have := setBytes_add domainBytes (· == ·) E.hash s d
        have := domainBytes_length d
        omega
    split at h
    · split at h
      · cases h
      · have := ih h
        have := setBytes_add domainBytes (· == ·) E.hash s (d.drop 1)
        have := domainBytes_length (d.drop 1)
        rw [List.length_drop] at this
        omega
    · have := ih h
      omega

theorem segments_size (cur p : Bytes) : ((domainSegmentsLoop cur p).map fun d => d.length + 11).sum ≤ 11 * (cur.length + p.length + 1) := by
  induction p generalizing cur with
  | nil => simp [domainSegmentsLoop]; omega
  | cons c p ih =>
    unfold domainSegmentsLoop
    split
    · have := ih []
      simp only [List.map_cons, List.sum_cons, List.length_cons, List.length_nil] at this ⊢
      omega
    · have := ih (cur ++ [c])
      simp only [List.length_append, List.length_cons, List.length_nil] at this ⊢
      omega

theorem addFilterDomains_size {E : Env} {n : Nat} {f : Filter} (hf : Small n f) {s s' : HSet Bytes} (h : addFilterDomainsToHashSet E f s = .ok s') :
    (setBytes domainBytes s').length ≤ (setBytes domainBytes s).length + 11 * (n + 1) := by
  unfold addFilterDomainsToHashSet at h
  cases hd : f.domainList with
  | none => rw [hd] at h; cases h; omega
  | some dl =>
    rw [hd] at h
    have h1 := addDomains_size h
    have h2 := segments_size [] dl
    have h3 := hf.domains
    rw [hd] at h3
    simp only [Option.getD_some, List.length_nil] at h2 h3
    unfold domainSegments at h1
    omega

/-! #### the structures of a client -/

/-- the number of bytes the structures take when they are written -/
def Build.size {E : Env} (b : Build E) : Nat :=
  ((storedLists.map b.arr).map fun l => (arrayBytes l).length).sum + (E.fp.buffer b.bloom).length + (E.fp.buffer b.exceptionBloom).length +
    (setBytes (fun f => entryBytes (entryText f) f) b.hostSet).length + (setBytes (fun f => entryBytes (entryText f) f) b.hostExceptionSet).length +
    ((storedSets.map b.domSets).map fun s => (setBytes domainBytes s).length).sum

theorem apply_size {E : Env} (hE : FixedBlooms E) {b b' : Build E} {f : Filter} {e : Effect} {n : Nat} (hf : Small n f)
    (h : b.apply f e = .ok b') : b'.size ≤ b.size + (4 * n + 43) := by
  cases e with
  | none => cases h; omega
  | addHostException =>
    simp only [Build.apply] at h
    obtain ⟨g, hg, h⟩ := Res.bind_eq_ok.1 h
    cases h
    have h1 := setBytes_add (fun f => entryBytes (entryText f) f) filterEq (filterHash E) b.hostExceptionSet g
    have h2 := entryBytes_small (copy_small hf hg)
    simp only [Build.size]
    omega
  | addHost =>
    simp only [Build.apply] at h
    obtain ⟨g, hg, h⟩ := Res.bind_eq_ok.1 h
    cases h
    have h1 := setBytes_add (fun f => entryBytes (entryText f) f) filterEq (filterHash E) b.hostSet g
    have h2 := entryBytes_small (copy_small hf hg)
    simp only [Build.size]
    omega
  | addExceptionFingerprint w =>
    cases h
    have := hE b.exceptionBloom w
    simp only [Build.size]
    omega
  | addFingerprint w =>
    cases h
    have := hE b.bloom w
    simp only [Build.size]
    omega

theorem store_size {E : Env} {b b' : Build E} {f : Filter} {cl : Class} {n : Nat} (hf : Small n f)
    (h : b.store f cl = .ok b') : b'.size ≤ b.size + (15 * n + 47) := by
  cases cl with
  | drop => cases h; omega
  | hostAnchored => cases h; omega
  | hostAnchoredException => cases h; omega
  | list id =>
    simp only [Build.store] at h
    have hr := ruleBytes_small hf
    obtain ⟨b1, h1, h⟩ : ∃ b1 : Build E, (b1 = b ∨ ∃ d s, addFilterDomainsToHashSet E f (b.domSets d) = .ok s ∧
        b1 = { b with domSets := fun i => if i = d then s else b.domSets i }) ∧
        { b1 with arr := fun i => if i = id then b1.arr i ++ [f] else b1.arr i } = b' := by
      split at h
      · cases h; exact ⟨b, .inl rfl, rfl⟩
      · rename_i d _
        obtain ⟨s, hs, h⟩ := Res.bind_eq_ok.1 h
        cases h
        exact ⟨_, .inr ⟨d, s, hs, rfl⟩, rfl⟩
    subst h
    have e1 : b1.size ≤ b.size + 11 * (n + 1) := by
      obtain rfl | ⟨d, s, hs, rfl⟩ := h1
      · omega
      ·
        have := addFilterDomains_size hf hs
        simp only [Build.size, storedSets, List.map_cons, List.map_nil, List.sum_cons, List.sum_nil]
        cases d <;> simp <;> omega
    have e2 : ∀ l : List Filter, (arrayBytes (l ++ [f])).length = (arrayBytes l).length + (ruleBytes (writtenText f) f).length := by
      intro l; simp [arrayBytes]
    have e3 : Build.size { b1 with arr := fun i => if i = id then b1.arr i ++ [f] else b1.arr i } ≤ b1.size + (4 * n + 36) := by
      simp only [Build.size, storedLists, List.map_cons, List.map_nil, List.sum_cons, List.sum_nil]
      cases id <;> simp [e2] <;> omega
    omega

/-- a line of a list -/
theorem fillLine_size {E : Env} (hE : FixedBlooms E) {pr : Bool} {b b' : Build E} {l : Bytes × Byte} (h : fillLine E pr b l = .ok b') :
    b'.size ≤ b.size + (19 * l.1.length + 90) := by
  unfold fillLine Build.enter at h
  obtain ⟨⟨f, e⟩, h1, h⟩ := Res.bind_eq_ok.1 h
  obtain ⟨b1, h2, h⟩ := Res.bind_eq_ok.1 h
  obtain ⟨cl, h3, h⟩ := Res.bind_eq_ok.1 h
  have hs := parseFilter_small h1
  have := apply_size hE hs h2
  have := store_size hs h
  omega

theorem fill_size {E : Env} (hE : FixedBlooms E) {pr : Bool} {ls : List (Bytes × Byte)} {b b' : Build E} (h : fill E pr ls b = .ok b') :
    b'.size ≤ b.size + 90 * (ls.map fun l => l.1.length + 1).sum := by
  induction ls generalizing b with
  | nil => cases h; simp
  | cons l ls ih =>
    simp only [fill] at h
    obtain ⟨b1, h1, h⟩ := Res.bind_eq_ok.1 h
    have := fillLine_size hE h1
    have := ih h
    simp only [List.map_cons, List.sum_cons]
    omega

theorem lines_size (input : Bytes) : ((lines input).map fun l => l.length + 1).sum = input.length + 1 := by
  have key : ∀ s : Bytes, ((splitOn 10 s).map fun l => l.length + 1).sum = s.length + 1 := by
    intro s
    induction s with
    | nil => rfl
    | cons c s ih =>
      unfold splitOn
      split
      · simp [ih]; omega
      · cases hs : splitOn 10 s with
        | nil => exact absurd hs (splitOn_ne_nil 10 s)
        | cons p ps =>
          rw [hs] at ih
          simp only [List.map_cons, List.sum_cons, List.length_cons] at ih ⊢
          omega
  unfold lines
  rw [key, List.length_map]

theorem countPass_size {bad : List Bytes} {ls : List (Bytes × Byte)} {n m : Counts} (h : countPass bad ls n = .ok m) :
    m.hostAnchored ≤ n.hostAnchored + ls.length ∧ m.hostAnchoredException ≤ n.hostAnchoredException + ls.length := by
  induction ls generalizing n with
  | nil => cases h; simp
  | cons l ls ih =>
    rw [countPass_cons] at h
    obtain ⟨cl, _, h⟩ := Res.bind_eq_ok.1 h
    have := ih h
    simp only [List.length_cons]
    cases cl <;> simp only [Counts.bump] at this <;> omega

theorem parse_size {E : Env} (hE : FixedBlooms E) {c c' : Client E} {input : Bytes} {pr : Bool} (h : c.parse input pr = .ok c') :
    c'.startBuild.size ≤ c.startBuild.size + 90 * (input.length + 1) ∧
    c'.numHostAnchoredFilters ≤ c.numHostAnchoredFilters + (input.length + 1) ∧
    c'.numHostAnchoredExceptionFilters ≤ c.numHostAnchoredExceptionFilters + (input.length + 1) := by
  obtain ⟨n, b, h1, h2, rfl⟩ := parse_ok_iff.1 h
  have hl := lines_size input
  have e1 := fill_size hE h2
  have e2 := countPass_size h1
  have e3 : ((nul (lines input)).map fun l => l.1.length + 1).sum = input.length + 1 := by
    rw [← hl]; simp [nul, Function.comp_def]
  have e4 : (nul (lines input)).length ≤ input.length + 1 := by
    rw [← hl]
    simp only [nul, List.length_map]
    generalize lines input = ls
    induction ls with
    | nil => simp
    | cons l ls ih => simp only [List.map_cons, List.sum_cons, List.length_cons]; omega
  rw [e3] at e1
  refine ⟨?_, ?_, ?_⟩
  · have : (c.finish n b).startBuild = b := rfl
    rw [this]; exact e1
  · show c.numHostAnchoredFilters + n.hostAnchored ≤ _
    have := e2.1
    simp only at this
    omega
  · show c.numHostAnchoredExceptionFilters + n.hostAnchoredException ≤ _
    have := e2.2
    simp only at this
    omega

theorem bytes_size {E : Env} (c : Client E) (ic ih : Bool) : (c.bytes ic ih).length ≤ c.startBuild.size + 181 := by
  have h1 : (fmtXs ((c.header ic ih).map (BitVec.ofNat 32))).length ≤ 180 := by
    refine Nat.le_trans (fmtXs_length _) ?_
    simp [Client.header, Client.arrays, Client.sections, storedLists, storedSets]
  have h2 : ((c.arrays ic ih).flatMap arrayBytes).length ≤ ((storedLists.map c.lists).map fun l => (arrayBytes l).length).sum := by
    rw [List.length_flatMap]
    simp only [Client.arrays, storedLists, List.map_cons, List.map_nil, List.sum_cons, List.sum_nil, Client.storedList]
    cases ic <;> cases ih <;> simp [arrayBytes] <;> omega
  have b1 : (bloomSection c.bloom).length ≤ (E.fp.buffer (c.bloom.getD (E.fp.new 15 80000))).length := by
    cases c.bloom <;> simp [bloomSection]
  have b2 : (bloomSection c.exceptionBloom).length ≤ (E.fp.buffer (c.exceptionBloom.getD (E.fp.new 10 20000))).length := by
    cases c.exceptionBloom <;> simp [bloomSection]
  have hb : ∀ (s : Option (HSet Filter)) n, (hostBytes s).length ≤ (setBytes (fun f => entryBytes (entryText f) f) (s.getD (HSet.new n))).length := by
    intro s n; cases s <;> simp [hostBytes]
  have db : ∀ (s : Option (HSet Bytes)) n, (domBytes s).length ≤ (setBytes domainBytes (s.getD (HSet.new n))).length := by
    intro s n; cases s <;> simp [domBytes]
  have h3 : c.sections.flatten.length ≤ c.startBuild.size - ((storedLists.map c.lists).map fun l => (arrayBytes l).length).sum := by
    simp only [Client.sections, storedSets, List.map_cons, List.map_nil, List.cons_append, List.nil_append, List.flatten_cons, List.flatten_nil,
      List.length_append, List.length_nil, Build.size, Client.startBuild, List.sum_cons, List.sum_nil]
    have := hb c.hostSet 18000
    have := hb c.hostExceptionSet 2000
    have := db (c.domSets .domain) (DomId.buckets .domain)
    have := db (c.domSets .antiDomain) (DomId.buckets .antiDomain)
    have := db (c.domSets .domainException) (DomId.buckets .domainException)
    have := db (c.domSets .antiDomainException) (DomId.buckets .antiDomainException)
    omega
  have h4 : ((storedLists.map c.lists).map fun l => (arrayBytes l).length).sum ≤ c.startBuild.size := by
    simp only [Build.size, Client.startBuild]
    omega
  simp only [Client.bytes, List.length_append, List.length_singleton]
  omega

theorem fresh_size (E : Env) : (Client.fresh E).startBuild.size ≤
    (E.fp.buffer (E.fp.new 15 80000)).length + (E.fp.buffer (E.fp.new 10 20000)).length + 22254 := by
  have h1 := setBytes_new (fun f => entryBytes (entryText f) f) 18000
  have h2 := setBytes_new (fun f => entryBytes (entryText f) f) 2000
  have h3 := setBytes_new domainBytes (DomId.buckets .domain)
  have h4 := setBytes_new domainBytes (DomId.buckets .antiDomain)
  have h5 := setBytes_new domainBytes (DomId.buckets .domainException)
  have h6 := setBytes_new domainBytes (DomId.buckets .antiDomainException)
  simp only [Build.size, Client.startBuild, Client.fresh, Option.getD_none, storedSets, storedLists, List.map_cons, List.map_nil,
    List.sum_cons, List.sum_nil, arrayBytes, List.flatMap_nil, List.length_nil, DomId.buckets] at *
  omega

theorem byteEnv_fixed : FixedBlooms byteEnv := fun _ _ => rfl

theorem byteEnv_moderate : ModerateBlooms byteEnv := by
  constructor <;> exact (by decide : 1 ≤ 2 ^ 20)

end AdBlock
