import Verif.SpecWrap
import Verif.Lemmas.SerializeQuery
/-
Storing the lengths of texts does not change what a client does.
-/
namespace AdBlock
open Spec

/-! ### related outcomes -/

/-- both runs have related results, or both have the same undefined behaviour -/
inductive RelRes {α β : Type _} (R : α → β → Prop) : Res α → Res β → Prop
  | ok {a b} : R a b → RelRes R (.ok a) (.ok b)
  | ub (u : UB) : RelRes R (.ub u) (.ub u)

theorem RelRes.bind {α β γ δ : Type} {R : α → β → Prop} {S : γ → δ → Prop} {x : Res α} {y : Res β} {f : α → Res γ} {g : β → Res δ}
    (h : RelRes R x y) (hf : ∀ a b, R a b → RelRes S (f a) (g b)) : RelRes S (x >>= f) (y >>= g) := by
  cases h with
  | ok h => exact hf _ _ h
  | ub u => exact .ub u

theorem RelRes.map {α β γ δ : Type} {R : α → β → Prop} {S : γ → δ → Prop} {x : Res α} {y : Res β} {f : α → γ} {g : β → δ}
    (h : RelRes R x y) (hf : ∀ a b, R a b → S (f a) (g b)) : RelRes S (f <$> x) (g <$> y) := by
  cases h with
  | ok h => exact .ok (hf _ _ h)
  | ub u => exact .ub u

theorem RelRes.refl {α : Type} {R : α → α → Prop} (h : ∀ a, R a a) (x : Res α) : RelRes R x x := by
  cases x with
  | ok a => exact .ok (h a)
  | ub u => exact .ub u

theorem RelRes.ite {α β : Type} {R : α → β → Prop} {p : Prop} [Decidable p] {x x' : Res α} {y y' : Res β}
    (h : RelRes R x y) (h' : RelRes R x' y') : RelRes R (if p then x else x') (if p then y else y') := by
  split
  · exact h
  · exact h'

/-! ### one rule -/

/-- the same rule, up to whether its length is stored -/
def Memo (f g : Filter) : Prop := f.cached = g.cached

theorem Memo.refl (f : Filter) : Memo f f := rfl
theorem Memo.symm {f g : Filter} (h : Memo f g) : Memo g f := Eq.symm h
theorem Memo.trans {f g h : Filter} (h1 : Memo f g) (h2 : Memo g h) : Memo f h := Eq.trans h1 h2

theorem cached_eq (f : Filter) : ∃ n, f.cached = { f with dataLen := n } := by
  unfold Filter.cached
  split
  · split
    · exact ⟨_, rfl⟩
    · exact ⟨f.dataLen, rfl⟩
  · exact ⟨f.dataLen, rfl⟩

theorem cached_cached (f : Filter) : f.cached.cached = f.cached := by
  cases hd : f.data with
  | none => simp [Filter.cached, hd]
  | some d =>
    cases hn : f.dataLen with
    | some n => simp [Filter.cached, hd, hn]
    | none =>
      cases hs : strlen d with
      | ub u => simp [Filter.cached, hd, hn, hs]
      | ok n => simp [Filter.cached, hd, hn, hs]

theorem memo_cached (f : Filter) : Memo f f.cached := (cached_cached f).symm

theorem Memo.same {f g : Filter} (h : Memo f g) : SameUpToLength f g := by
  obtain ⟨n, hn⟩ := cached_eq f
  obtain ⟨m, hm⟩ := cached_eq g
  have h : { f with dataLen := n } = { g with dataLen := m } := by rw [← hn, ← hm]; exact h
  refine ⟨g.dataLen, ?_⟩
  have : { ({ f with dataLen := n } : Filter) with dataLen := g.dataLen } = { ({ g with dataLen := m } : Filter) with dataLen := g.dataLen } := by
    rw [h]
  exact this.symm

theorem Memo.fields {f g : Filter} (h : Memo f g) : g.borrowed = f.borrowed ∧ g.filterType = f.filterType ∧ g.filterOption = f.filterOption ∧
    g.antiFilterOption = f.antiFilterOption ∧ g.data = f.data ∧ g.domainList = f.domainList ∧ g.tag = f.tag ∧ g.host = f.host := by
  obtain ⟨n, rfl⟩ := h.same
  exact ⟨rfl, rfl, rfl, rfl, rfl, rfl, rfl, rfl⟩

theorem cached_matches (f : Filter) (url : Bytes) (ctx : Mask) (dom : Option Bytes) (bloom : Option (Bytes → Bool)) :
    f.cached.matches url ctx dom bloom = f.matches url ctx dom bloom := by
  cases hd : f.data with
  | none => simp [Filter.cached, hd]
  | some d =>
    cases hn : f.dataLen with
    | some n => simp [Filter.cached, hd, hn]
    | none =>
      cases hs : strlen d with
      | ub u => simp [Filter.cached, hd, hn, hs]
      | ok n =>
        have e : f.cached = { f with dataLen := some n } := by simp [Filter.cached, hd, hn, hs]
        rw [e]
        unfold Filter.matches
        have e : ({ f with dataLen := some n } : Filter).matchesOptions ctx dom = f.matchesOptions ctx dom :=
          matchesOptions_congr (f := { f with dataLen := some n }) (g := f) rfl rfl rfl ctx dom
        rw [e, hn]
        simp only [hd, hs, Res.bind_ok, Res.pure_eq]
        rfl

theorem Memo.matches {f g : Filter} (h : Memo f g) (url : Bytes) (ctx : Mask) (dom : Option Bytes) (bloom : Option (Bytes → Bool)) :
    f.matches url ctx dom bloom = g.matches url ctx dom bloom := by
  rw [← cached_matches f, ← cached_matches g]
  have h : f.cached = g.cached := h
  rw [h]

theorem Memo.tagOk {f g : Filter} (h : Memo f g) (tags : List Bytes) : AdBlock.tagOk tags f = AdBlock.tagOk tags g := by
  unfold AdBlock.tagOk
  rw [h.fields.2.2.2.2.2.2.1]

/-! ### queries -/

/-- corresponding results -/
abbrev MemoOpt : Option Filter → Option Filter → Prop := SamePointer Memo

theorem MemoOpt.refl (f : Option Filter) : MemoOpt f f := by
  cases f with
  | none => exact .null
  | some f => exact .some (Memo.refl f)

theorem MemoOpt.isNone {f g : Option Filter} (h : MemoOpt f g) : g.isNone = f.isNone := by cases h <;> rfl

theorem hasMatching_memo {tags : List Bytes} {m : Filter → Res Bool} (hm : ∀ f g, Memo f g → m f = m g) {l l' : List Filter}
    (h : Pointwise Memo l l') : RelRes MemoOpt (hasMatchingFilters tags m l) (hasMatchingFilters tags m l') := by
  induction h with
  | nil => exact .ok .null
  | @cons f g l l' hfg _ ih =>
    simp only [hasMatchingFilters]
    rw [hm f g hfg, hfg.tagOk]
    refine RelRes.bind (RelRes.refl (R := Eq) (fun _ => rfl) _) ?_
    rintro b _ rfl
    exact RelRes.ite (.ok (.some hfg)) ih

theorem callMatch_memo (E : Env) (url : Bytes) (ctx : Mask) (dom : Option Bytes) (f g : Filter) (h : Memo f g) :
    Client.callMatch E url ctx dom f = Client.callMatch E url ctx dom g := h.matches ..

theorem callMatchNoBloom_memo (url : Bytes) (ctx : Mask) (dom : Option Bytes) (f g : Filter) (h : Memo f g) :
    Client.callMatchNoBloom url ctx dom f = Client.callMatchNoBloom url ctx dom g := h.matches ..

/-- the same client, up to stored lengths -/
def SameButLengths {E : Env} (c d : Client E) : Prop := ∃ L, d = { c with lists := L } ∧ ∀ id, Pointwise Memo (c.lists id) (L id)

theorem Pointwise.refl' {A : Type} {R : A → A → Prop} (h : ∀ a, R a a) : ∀ l : List A, Pointwise R l l
  | [] => .nil
  | a :: l => .cons (h a) (Pointwise.refl' h l)

theorem SameButLengths.refl {E : Env} (c : Client E) : SameButLengths c c := ⟨c.lists, rfl, fun _ => Pointwise.refl' Memo.refl _⟩

section
variable {E : Env} {c d : Client E} (h : SameButLengths c d) {url : Bytes} {ctx : Mask} {dom : Option Bytes}
include h

theorem noFpPhase_memo (ds as : DomId) (dl al l : ListId) :
    RelRes MemoOpt (c.noFpPhase ds as dl al l url ctx dom) (d.noFpPhase ds as dl al l url ctx dom) := by
  obtain ⟨L, rfl, hL⟩ := h
  rw [noFpPhase_eq, noFpPhase_eq]
  have key := fun id => hasMatching_memo (tags := c.tags) (callMatch_memo E url ctx dom) (hL id)
  refine RelRes.bind (RelRes.ite (key dl) (.ok .null)) fun r1 r1' h1 => ?_
  rw [h1.isNone]
  refine RelRes.bind (RelRes.ite (key al) (.ok h1)) fun r2 r2' h2 => ?_
  rw [h2.isNone]
  exact RelRes.ite (key l) (.ok h2)

/-- corresponding results of `matches` -/
structure MemoOutcome (o o' : Outcome E) : Prop where
  block : o'.block = o.block
  filter : MemoOpt o.filter o'.filter
  exception : MemoOpt o.exception o'.exception
  stats : o'.stats = o.stats
  badFps : o'.badFps = o.badFps

omit h in
/-- corresponding results of the first half -/
inductive MemoBlock : BlockRes E → BlockRes E → Prop
  | done {o o'} : MemoOutcome o o' → MemoBlock (.done o) (.done o')
  | hit {f f'} : MemoOpt f f' → MemoBlock (.hit f) (.hit f')

theorem blockPhase_memo : RelRes MemoBlock (c.blockPhase url ctx dom) (d.blockPhase url ctx dom) := by
  have hp := fun ds as dl al l => noFpPhase_memo h (url := url) (ctx := ctx) (dom := dom) ds as dl al l
  obtain ⟨L, rfl, hL⟩ := h
  unfold Client.blockPhase
  refine RelRes.bind (hp ..) fun r r' hr => ?_
  cases hr with
  | some hf => exact .ok (.hit (.some hf))
  | null =>
    simp only
    refine RelRes.bind (RelRes.refl (R := Eq) (fun _ => rfl) _) ?_
    rintro r _ rfl
    refine RelRes.ite (.ok (.done ⟨rfl, MemoOpt.refl _, .null, rfl, rfl⟩)) (RelRes.ite (.ok (.hit (MemoOpt.refl _))) ?_)
    refine RelRes.bind (hasMatching_memo (callMatch_memo E url ctx dom) (hL _)) fun m m' hm => ?_
    cases hm with
    | some hf => exact .ok (.hit (.some hf))
    | null =>
      simp only
      split
      · exact .ok (.done ⟨rfl, .null, .null, rfl, rfl⟩)
      · refine RelRes.bind (RelRes.refl (R := Eq) (fun _ => rfl) _) ?_
        rintro r _ rfl
        exact .ok (.done ⟨rfl, .null, .null, rfl, rfl⟩)

theorem exceptionPhase_memo {mf mf' : Option Filter} (hmf : MemoOpt mf mf') :
    RelRes MemoOutcome (c.exceptionPhase mf url ctx dom) (d.exceptionPhase mf' url ctx dom) := by
  have hp := fun ds as dl al l => noFpPhase_memo h (url := url) (ctx := ctx) (dom := dom) ds as dl al l
  obtain ⟨L, rfl, hL⟩ := h
  unfold Client.exceptionPhase
  refine RelRes.bind (hp ..) fun r r' hr => ?_
  cases hr with
  | some hf => exact .ok ⟨rfl, hmf, .some hf, rfl, rfl⟩
  | null =>
    simp only
    refine RelRes.bind (RelRes.refl (R := Eq) (fun _ => rfl) _) ?_
    rintro r _ rfl
    refine RelRes.ite (.ok ⟨rfl, hmf, MemoOpt.refl _, rfl, rfl⟩) (RelRes.ite (.ok ⟨rfl, hmf, MemoOpt.refl _, rfl, rfl⟩) ?_)
    refine RelRes.bind (hasMatching_memo (callMatch_memo E url ctx dom) (hL _)) fun m m' hm => ?_
    cases hm with
    | some hf => exact .ok ⟨rfl, hmf, .some hf, rfl, rfl⟩
    | null =>
      simp only
      split
      · exact .ok ⟨rfl, hmf, .null, rfl, rfl⟩
      · refine RelRes.bind (RelRes.refl (R := Eq) (fun _ => rfl) _) ?_
        rintro r _ rfl
        exact .ok ⟨rfl, hmf, .null, rfl, rfl⟩

theorem query_memo (url : Bytes) (co : Mask) (dom : Option Bytes) : RelRes MemoOutcome (c.query url co dom) (d.query url co dom) := by
  have h1 := blockPhase_memo h (url := url) (ctx := resolveContext url co dom) (dom := dom)
  have h2 := fun mf mf' hm => exceptionPhase_memo h (url := url) (ctx := resolveContext url co dom) (dom := dom) (mf := mf) (mf' := mf') hm
  unfold Client.query
  refine RelRes.bind (RelRes.refl (R := Eq) (fun _ => rfl) _) ?_
  rintro b _ rfl
  refine RelRes.ite ?_ (RelRes.bind h1 fun r r' hr => ?_)
  · obtain ⟨L, rfl, hL⟩ := h
    exact .ok ⟨rfl, .null, .null, rfl, rfl⟩
  · cases hr with
    | done ho => exact .ok ho
    | hit hf => exact h2 _ _ hf

omit h in
theorem firstInLists_memo {tags : List Bytes} {m : Filter → Res Bool} (hm : ∀ f g, Memo f g → m f = m g) {ls ls' : List (List Filter)}
    (h : Pointwise (Pointwise Memo) ls ls') : RelRes MemoOpt (firstInLists tags m ls) (firstInLists tags m ls') := by
  induction h with
  | nil => exact .ok .null
  | cons hl _ ih =>
    simp only [firstInLists]
    refine RelRes.bind (hasMatching_memo hm hl) fun r r' hr => ?_
    cases hr with
    | some hf => exact .ok (.some hf)
    | null => exact ih

omit h in
theorem orTry_memo {a a' : Option Filter} {X Y : Res (Option Filter)} (ha : MemoOpt a a') (hX : RelRes MemoOpt X Y) :
    RelRes MemoOpt (orTry a X) (orTry a' Y) := by
  cases ha with
  | some h => exact .ok (.some h)
  | null => exact hX

omit h in
/-- corresponding results of `findMatchingFilters` -/
structure MemoFound (o o' : Found) : Prop where
  block : o'.block = o.block
  filter : MemoOpt o.filter o'.filter
  exception : MemoOpt o.exception o'.exception

theorem find_memo (url : Bytes) (co : Mask) (dom : Option Bytes) :
    RelRes MemoFound (c.findMatchingFilters url co dom) (d.findMatchingFilters url co dom) := by
  obtain ⟨L, rfl, hL⟩ := h
  rw [find_orTry, find_orTry]
  have hm := callMatchNoBloom_memo url (resolveContext url co dom) dom
  refine RelRes.bind (firstInLists_memo hm (.cons (hL _) (.cons (hL _) (.cons (hL _) (.cons (hL _) .nil))))) fun r r' hr => ?_
  refine RelRes.bind (orTry_memo hr (RelRes.refl MemoOpt.refl _)) fun r r' hr => ?_
  cases hr with
  | null => exact .ok ⟨rfl, .null, .null⟩
  | some hf =>
    simp only
    refine RelRes.bind (firstInLists_memo hm (.cons (hL _) (.cons (hL _) (.cons (hL _) .nil)))) fun r r' hr => ?_
    refine RelRes.bind (orTry_memo hr (RelRes.refl MemoOpt.refl _)) fun r r' hr => ?_
    refine RelRes.bind (orTry_memo hr (hasMatching_memo hm (hL _))) fun r r' hr => ?_
    exact .ok ⟨hr.isNone, .some hf, hr⟩

end

/-! ### loading -/

/-- the same structures, up to stored lengths -/
def SameBuild {E : Env} (b b' : Build E) : Prop := ∃ A, b' = { b with arr := A } ∧ ∀ id, Pointwise Memo (b.arr id) (A id)

theorem Pointwise.append {A B : Type} {R : A → B → Prop} {l l' : List A} {m m' : List B} (h : Pointwise R l m) (h' : Pointwise R l' m') :
    Pointwise R (l ++ l') (m ++ m') := by
  induction h with
  | nil => exact h'
  | cons h _ ih => exact .cons h ih

theorem apply_memo {E : Env} {b b' : Build E} (h : SameBuild b b') (f : Filter) (e : Effect) :
    RelRes SameBuild (b.apply f e) (b'.apply f e) := by
  obtain ⟨A, rfl, hA⟩ := h
  cases e with
  | none => exact .ok ⟨A, rfl, hA⟩
  | addHostException =>
    simp only [Build.apply]
    refine RelRes.bind (RelRes.refl (R := Eq) (fun _ => rfl) _) ?_
    rintro g _ rfl
    exact .ok ⟨A, rfl, hA⟩
  | addHost =>
    simp only [Build.apply]
    refine RelRes.bind (RelRes.refl (R := Eq) (fun _ => rfl) _) ?_
    rintro g _ rfl
    exact .ok ⟨A, rfl, hA⟩
  | addExceptionFingerprint w => exact .ok ⟨A, rfl, hA⟩
  | addFingerprint w => exact .ok ⟨A, rfl, hA⟩

theorem store_memo {E : Env} {b b' : Build E} (h : SameBuild b b') (f : Filter) (cl : Class) :
    RelRes SameBuild (b.store f cl) (b'.store f cl) := by
  obtain ⟨A, rfl, hA⟩ := h
  cases cl with
  | drop => exact .ok ⟨A, rfl, hA⟩
  | hostAnchored => exact .ok ⟨A, rfl, hA⟩
  | hostAnchoredException => exact .ok ⟨A, rfl, hA⟩
  | list id =>
    have fin : ∀ b b' : Build E, SameBuild b b' → SameBuild { b with arr := fun i => if i = id then b.arr i ++ [f] else b.arr i }
        { b' with arr := fun i => if i = id then b'.arr i ++ [f] else b'.arr i } := by
      rintro b b' ⟨A, rfl, hA⟩
      refine ⟨_, rfl, fun i => ?_⟩
      simp only
      split
      · exact Pointwise.append (hA i) (.cons (Memo.refl f) .nil)
      · exact hA i
    simp only [Build.store]
    cases id.domId with
    | none => exact .ok (fin b _ ⟨A, rfl, hA⟩)
    | some dd =>
      simp only
      cases addFilterDomainsToHashSet E f (b.domSets dd) with
      | ub u => exact .ub u
      | ok s => exact .ok (fin _ _ ⟨A, rfl, hA⟩)

theorem fill_memo {E : Env} (pr : Bool) (ls : List (Bytes × Byte)) : ∀ {b b' : Build E}, SameBuild b b' →
    RelRes SameBuild (fill E pr ls b) (fill E pr ls b') := by
  induction ls with
  | nil => intro b b' h; exact .ok h
  | cons l ls ih =>
    intro b b' h
    simp only [fill, fillLine]
    refine RelRes.bind ?_ fun b b' h => ih h
    refine RelRes.bind (RelRes.refl (R := Eq) (fun _ => rfl) _) ?_
    rintro x _ rfl
    unfold Build.enter
    refine RelRes.bind (apply_memo h ..) fun b b' h => ?_
    refine RelRes.bind (RelRes.refl (R := Eq) (fun _ => rfl) _) ?_
    rintro cl _ rfl
    exact store_memo h ..

theorem parse_memo {E : Env} {c d : Client E} (h : SameButLengths c d) (input : Bytes) (pr : Bool) :
    RelRes SameButLengths (c.parse input pr) (d.parse input pr) := by
  obtain ⟨L, rfl, hL⟩ := h
  rw [parse_lines, parse_lines]
  refine RelRes.bind (RelRes.refl (R := Eq) (fun _ => rfl) _) ?_
  rintro n _ rfl
  refine RelRes.bind (fill_memo pr _ (b := c.startBuild) (b' := ({ c with lists := L } : Client E).startBuild) ⟨L, rfl, hL⟩) fun b b' hb => ?_
  obtain ⟨A, rfl, hA⟩ := hb
  exact .ok ⟨A, rfl, hA⟩

/-! ### operations -/

/-- corresponding results of operations -/
def MemoStep {E : Env} (x y : Answer × Client E) : Prop := SameAnswer x.1 y.1 ∧ SameButLengths x.2 y.2

theorem MemoOpt.same {f g : Option Filter} (h : MemoOpt f g) : SamePointer SameUpToLength f g := by
  cases h with
  | null => exact .null
  | some h => exact .some (Memo.same h)

theorem step_memo {E : Env} {c d : Client E} (h : SameButLengths c d) (op : Op) : RelRes MemoStep (step c op) (step d op) := by
  cases op with
  | parse input pr => exact RelRes.map (parse_memo h input pr) fun a b hab => ⟨.done, hab⟩
  | «matches» url co dom =>
    refine RelRes.map (query_memo h url co dom) fun o o' ho => ⟨?_, ?_⟩
    · show SameAnswer (.verdict ..) (.verdict ..)
      rw [ho.block]
      exact .verdict _ (MemoOpt.same ho.filter) (MemoOpt.same ho.exception)
    · obtain ⟨L, rfl, hL⟩ := h
      refine ⟨L, ?_, hL⟩
      rw [ho.stats, ho.badFps]
  | find url co dom =>
    refine RelRes.map (find_memo h url co dom) fun o o' ho => ⟨?_, h⟩
    show SameAnswer (.verdict ..) (.verdict ..)
    rw [ho.block]
    exact .verdict _ (MemoOpt.same ho.filter) (MemoOpt.same ho.exception)
  | addTag t =>
    obtain ⟨L, rfl, hL⟩ := h
    refine .ok ⟨.done, ?_⟩
    unfold Client.addTag
    by_cases ht : c.tagExists t = true
    · rw [if_pos ht, if_pos (show ({ c with lists := L } : Client E).tagExists t = true from ht)]
      exact ⟨L, rfl, hL⟩
    · rw [if_neg ht, if_neg (show ¬ ({ c with lists := L } : Client E).tagExists t = true from ht)]
      exact ⟨L, rfl, hL⟩
  | removeTag t => obtain ⟨L, rfl, hL⟩ := h; exact .ok ⟨.done, L, rfl, hL⟩
  | tagExists t => obtain ⟨L, rfl, hL⟩ := h; exact .ok ⟨.bool _, L, rfl, hL⟩
  | clear => obtain ⟨L, rfl, hL⟩ := h; exact .ok ⟨.done, _, rfl, fun _ => .nil⟩
  | enableBadFingerprintDetection =>
    obtain ⟨L, rfl, hL⟩ := h
    refine .ok ⟨.done, ?_⟩
    simp only [Client.enableBadFingerprintDetection]
    split
    · exact ⟨L, rfl, hL⟩
    · exact ⟨L, rfl, hL⟩

theorem Pointwise.trans' {A : Type} {R : A → A → Prop} (ht : ∀ a b c, R a b → R b c → R a c) {k l m : List A} (h1 : Pointwise R k l)
    (h2 : Pointwise R l m) : Pointwise R k m := by
  induction h1 generalizing m with
  | nil => exact h2
  | cons h _ ih =>
    cases h2 with
    | cons h' h2 => exact .cons (ht _ _ _ h h') (ih h2)

theorem SameButLengths.trans {E : Env} {a b c : Client E} (h1 : SameButLengths a b) (h2 : SameButLengths b c) : SameButLengths a c := by
  obtain ⟨L, rfl, hL⟩ := h1
  obtain ⟨M, rfl, hM⟩ := h2
  exact ⟨M, rfl, fun id => Pointwise.trans' (R := Memo) (fun _ _ _ h h' => Memo.trans h h') (hL id) (hM id)⟩

end AdBlock
