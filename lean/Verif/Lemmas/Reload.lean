import Verif.Lemmas.SerializeSame
import Verif.Props.History
/-
Clients with the same network rules stay alike, whatever is done with them.
-/
namespace AdBlock
open Spec

/-! ### loading further lists -/

theorem pointwise_append {A B : Type} {R : A → B → Prop} {l m : List A} {l' m' : List B} (h : Pointwise R l l') (h' : Pointwise R m m') :
    Pointwise R (l ++ m) (l' ++ m') := by
  induction h with
  | nil => exact h'
  | cons h _ ih => exact .cons h ih

theorem pointwise_refl {A : Type} {R : A → A → Prop} (hr : ∀ a, R a a) (l : List A) : Pointwise R l l := by
  induction l with
  | nil => exact .nil
  | cons a l ih => exact .cons (hr a) ih

theorem sameSet_refl {A : Type} {R : A → A → Prop} (hr : ∀ a, R a a) (s : HSet A) : SameSet R s s :=
  ⟨rfl, fun i _ => pointwise_refl hr _⟩

theorem samePointer_refl {A : Type} {R : A → A → Prop} (hr : ∀ a, R a a) (s : Option A) : SamePointer R s s := by
  cases s with
  | none => exact .null
  | some a => exact .some (hr a)

theorem pointwise_any {A B : Type} {R : A → B → Prop} {l : List A} {m : List B} (h : Pointwise R l m) {p : A → Bool} {q : B → Bool}
    (hpq : ∀ a b, R a b → q b = p a) : m.any q = l.any p := by
  induction h with
  | nil => rfl
  | cons h _ ih => rw [List.any_cons, List.any_cons, hpq _ _ h, ih]

theorem add_sameSet {A : Type} {R : A → A → Prop} (hr : ∀ a, R a a) {s t : HSet A} (h : SameSet R s t) {eq : A → A → Bool}
    {hash : A → Nat} (he : ∀ a b, R a b → ∀ x, eq b x = eq a x) (x : A) : SameSet R (s.add eq hash x) (t.add eq hash x) := by
  refine ⟨h.count, fun i hi => ?_⟩
  have hb := h.bucket i hi
  simp only [HSet.add, h.count]
  split
  · rw [pointwise_any hb (fun a b h => he a b h x)]
    split
    · exact hb
    · exact pointwise_append hb (.cons (hr x) .nil)
  · exact hb

/-- structures under construction in two clients -/
structure LikeBuild {E : Env} (a b : Build E) : Prop where
  bloom : b.bloom = a.bloom
  exceptionBloom : b.exceptionBloom = a.exceptionBloom
  hostSet : SameSet SameEntry a.hostSet b.hostSet
  hostExceptionSet : SameSet SameEntry a.hostExceptionSet b.hostExceptionSet
  domSets : ∀ i, SameSet Eq (a.domSets i) (b.domSets i)

theorem filterEq_same {f g : Filter} (h : SameEntry f g) (x : Filter) : filterEq g x = filterEq f x := by
  unfold filterEq
  rw [h.host]

theorem apply_same {E : Env} {a b a' : Build E} (h : LikeBuild a b) {f : Filter} {e : Effect} (ha : a.apply f e = .ok a') :
    ∃ b', b.apply f e = .ok b' ∧ LikeBuild a' b' := by
  have add : ∀ {s t : HSet Filter} {x}, SameSet SameEntry s t → SameSet SameEntry (s.add filterEq (filterHash E) x) (t.add filterEq (filterHash E) x) :=
    fun h => add_sameSet SameEntry.refl h (fun a b h x => filterEq_same h x) _
  cases e with
  | none => cases ha; exact ⟨_, rfl, h⟩
  | addHostException =>
    obtain ⟨g, hg, ha⟩ := Res.bind_eq_ok.1 ha
    cases ha
    refine ⟨{ b with hostExceptionSet := b.hostExceptionSet.add filterEq (filterHash E) g }, ?_,
      ⟨h.bloom, h.exceptionBloom, h.hostSet, add h.hostExceptionSet, h.domSets⟩⟩
    simp only [Build.apply, hg, Res.bind_ok, Res.pure_eq]
  | addHost =>
    obtain ⟨g, hg, ha⟩ := Res.bind_eq_ok.1 ha
    cases ha
    refine ⟨{ b with hostSet := b.hostSet.add filterEq (filterHash E) g }, ?_,
      ⟨h.bloom, h.exceptionBloom, add h.hostSet, h.hostExceptionSet, h.domSets⟩⟩
    simp only [Build.apply, hg, Res.bind_ok, Res.pure_eq]
  | addExceptionFingerprint fp =>
    cases ha
    exact ⟨_, rfl, h.bloom, by rw [← h.exceptionBloom], h.hostSet, h.hostExceptionSet, h.domSets⟩
  | addFingerprint fp =>
    cases ha
    exact ⟨_, rfl, by rw [← h.bloom], h.exceptionBloom, h.hostSet, h.hostExceptionSet, h.domSets⟩

theorem addDomains_same {E : Env} {ds : List Bytes} {s t s' : HSet Bytes} (h : SameSet Eq s t) (hs : addDomains E ds s = .ok s') :
    ∃ t', addDomains E ds t = .ok t' ∧ SameSet Eq s' t' := by
  have add : ∀ {s t : HSet Bytes} x, SameSet Eq s t → SameSet Eq (s.add (· == ·) E.hash x) (t.add (· == ·) E.hash x) :=
    fun x h => add_sameSet (fun _ => rfl) h (fun a b h x => by rw [h]) x
  induction ds generalizing s t with
  | nil => cases hs; exact ⟨_, rfl, h⟩
  | cons d ds ih =>
    simp only [addDomains] at hs ⊢
    split
    · rename_i h1
      rw [if_pos h1] at hs
      split
      · rename_i h2; rw [if_pos h2] at hs; cases hs
      · rename_i h2; rw [if_neg h2] at hs; exact ih (add _ h) hs
    · rename_i h1
      rw [if_neg h1] at hs
      split
      · rename_i h2
        rw [if_pos h2] at hs
        split
        · rename_i h3; rw [if_pos h3] at hs; cases hs
        · rename_i h3; rw [if_neg h3] at hs; exact ih (add _ h) hs
      · rename_i h2; rw [if_neg h2] at hs; exact ih h hs

theorem store_same {E : Env} {a b a' : Build E} (h : LikeBuild a b) {f : Filter} {cl : Class} (ha : a.store f cl = .ok a') :
    ∃ b', b.store f cl = .ok b' ∧ LikeBuild a' b' := by
  cases cl with
  | drop => cases ha; exact ⟨_, rfl, h⟩
  | hostAnchored => cases ha; exact ⟨_, rfl, h⟩
  | hostAnchoredException => cases ha; exact ⟨_, rfl, h⟩
  | list id =>
    simp only [Build.store] at ha ⊢
    cases hd : id.domId with
    | none =>
      rw [hd] at ha
      cases ha
      exact ⟨_, rfl, h.bloom, h.exceptionBloom, h.hostSet, h.hostExceptionSet, h.domSets⟩
    | some d =>
      rw [hd] at ha
      simp only at ha ⊢
      obtain ⟨s, hs, ha⟩ := Res.bind_eq_ok.1 ha
      cases ha
      have : ∃ t, addFilterDomainsToHashSet E f (b.domSets d) = .ok t ∧ SameSet Eq s t := by
        unfold addFilterDomainsToHashSet at hs ⊢
        cases hdl : f.domainList with
        | none => rw [hdl] at hs; cases hs; exact ⟨_, rfl, h.domSets d⟩
        | some dl => rw [hdl] at hs; exact addDomains_same (h.domSets d) hs
      obtain ⟨t, ht, hst⟩ := this
      rw [ht, Res.bind_ok]
      refine ⟨_, rfl, h.bloom, h.exceptionBloom, h.hostSet, h.hostExceptionSet, fun i => ?_⟩
      dsimp only
      split
      · exact hst
      · exact h.domSets i

theorem fill_same {E : Env} {pr : Bool} {ls : List (Bytes × Byte)} {a b a' : Build E} (h : LikeBuild a b) (ha : fill E pr ls a = .ok a') :
    ∃ b', fill E pr ls b = .ok b' ∧ LikeBuild a' b' := by
  induction ls generalizing a b with
  | nil => cases ha; exact ⟨_, rfl, h⟩
  | cons l ls ih =>
    simp only [fill, fillLine, Build.enter] at ha ⊢
    obtain ⟨a1, h1, ha⟩ := Res.bind_eq_ok.1 ha
    obtain ⟨x, hx, h1⟩ := Res.bind_eq_ok.1 h1
    obtain ⟨a2, h2, h1⟩ := Res.bind_eq_ok.1 h1
    obtain ⟨cl, hcl, h1⟩ := Res.bind_eq_ok.1 h1
    obtain ⟨b2, e2, s2⟩ := apply_same h h2
    obtain ⟨b1, e1, s1⟩ := store_same s2 h1
    rw [hx, Res.bind_ok, e2, Res.bind_ok, hcl, Res.bind_ok, e1, Res.bind_ok]
    exact ih s1 ha

theorem getD_same {A : Type} {R : A → A → Prop} (hr : ∀ a, R a a) {s t : Option A} (h : SamePointer R s t) (x : A) :
    R (s.getD x) (t.getD x) := by
  cases h with
  | null => exact hr x
  | some h => exact h

theorem startBuild_same {E : Env} {c d : Client E} (h : SameNetwork c d) : LikeBuild c.startBuild d.startBuild where
  bloom := by unfold Client.startBuild; rw [h.bloom]
  exceptionBloom := by unfold Client.startBuild; rw [h.exceptionBloom]
  hostSet := getD_same (sameSet_refl SameEntry.refl) h.hostSet _
  hostExceptionSet := getD_same (sameSet_refl SameEntry.refl) h.hostExceptionSet _
  domSets := fun i => getD_same (sameSet_refl fun _ => rfl) (h.domSets i) _

theorem parse_same {E : Env} {c d c' : Client E} (h : SameNetwork c d) {input : Bytes} {pr : Bool} (hp : c.parse input pr = .ok c') :
    ∃ d', d.parse input pr = .ok d' ∧ SameNetwork c' d' ∧ d'.tags = d.tags := by
  obtain ⟨fs, e1, -, e3, e4, e5⟩ := C20_arrays_filled hp
  obtain ⟨n, a, h1, h2, rfl⟩ := parse_ok_iff.1 hp
  obtain ⟨b, h3, hs⟩ := fill_same (startBuild_same h) h2
  have hd : d.parse input pr = .ok (d.finish n b) := parse_ok_iff.2 ⟨n, b, h1, h3, rfl⟩
  obtain ⟨fs', e1', -, e3', e4', e5'⟩ := C20_arrays_filled hd
  cases reads_unique e1 e1'
  refine ⟨_, hd, ⟨fun id hid => ?_, fun id => ?_, ?_, ?_, ?_, ?_, ?_, ?_, fun i => ?_⟩, rfl⟩
  · rw [e3, e3']
    exact pointwise_append (h.lists id hid) (pointwise_refl SameRule.refl _)
  · obtain ⟨l, h1, h2⟩ := h.pageRules id
    rw [e3, e3']
    obtain ⟨p, hp⟩ := h1
    exact ⟨_, ⟨p, by rw [← hp, List.append_assoc]⟩, pointwise_append h2 (pointwise_refl SameRule.refl _)⟩
  · rw [e4, e4', h.numHostAnchoredFilters]
  · rw [e5, e5', h.numHostAnchoredExceptionFilters]
  · simp only [Client.finish, hs.bloom]
  · simp only [Client.finish, hs.exceptionBloom]
  · exact .some hs.hostSet
  · exact .some hs.hostExceptionSet
  · exact .some (hs.domSets i)

theorem network_refl {E : Env} (c : Client E) : SameNetwork c c where
  lists _ _ := pointwise_refl SameRule.refl _
  pageRules _ := ⟨_, List.suffix_refl _, pointwise_refl SameRule.refl _⟩
  numHostAnchoredFilters := rfl
  numHostAnchoredExceptionFilters := rfl
  bloom := rfl
  exceptionBloom := rfl
  hostSet := samePointer_refl (sameSet_refl SameEntry.refl) _
  hostExceptionSet := samePointer_refl (sameSet_refl SameEntry.refl) _
  domSets _ := samePointer_refl (sameSet_refl fun _ => rfl) _

/-! ### queries -/

theorem query_network' {E : Env} {c d : Client E} (hcmp : Comparable c)
    (hready : c.bloom.isSome = true ∧ c.exceptionBloom.isSome = true ∨ (∀ id, c.lists id = []) ∧ ∀ s, c.hs s = none)
    (h : SameNetwork c d) (ht : d.tags = c.tags)
    {url : Bytes} (hu : 0 ∉ url) {ctx : Mask} {dom : Option Bytes} {o : Outcome E} (ho : c.query url ctx dom = .ok o) :
    ∃ o', d.query url ctx dom = .ok o' ∧ SameOutcome o o' := by
  let d0 := d.relabel d.stats none d.deserializedBuffer
  have hn : SameNetwork c d0 := ⟨h.lists, h.pageRules, h.numHostAnchoredFilters, h.numHostAnchoredExceptionFilters, h.bloom,
    h.exceptionBloom, h.hostSet, h.hostExceptionSet, h.domSets⟩
  obtain ⟨o0, h0, s0⟩ := query_same hcmp hn (fun f => by show tagOk d.tags f = _; rw [ht]) hu rfl ho
  have hd : d = d0.relabel d.stats d.badFps d.deserializedBuffer := rfl
  have key : Outcome.answer <$> d.query url ctx dom = Outcome.answer <$> d0.query url ctx dom := by
    rcases hready with hr | ⟨hl, hh⟩
    · rw [hd]
      refine query_relabel d0 _ _ _ (.inr ⟨?_, ?_⟩) url ctx dom
      · show d.bloom.isSome = true
        rw [h.bloom]; exact hr.1
      · show d.exceptionBloom.isSome = true
        rw [h.exceptionBloom]; exact hr.2
    · have hempty : ∀ id, d.lists id = [] := by
        intro id
        obtain ⟨l, h1, h2⟩ := h.pageRules id
        have : l = [] := by
          rw [hl id] at h1
          exact List.suffix_nil.1 h1
        rw [this] at h2
        generalize d.lists id = x at h2
        cases h2; rfl
      have hhost : ∀ s, d.hs s = none := by
        intro s
        have hc := hh s
        cases s with
        | false =>
          have := h.hostSet
          rw [show c.hostSet = none from hc] at this
          show d.hostSet = none
          generalize d.hostSet = x at this
          cases this; rfl
        | true =>
          have := h.hostExceptionSet
          rw [show c.hostExceptionSet = none from hc] at this
          show d.hostExceptionSet = none
          generalize d.hostExceptionSet = x at this
          cases this; rfl
      obtain ⟨o, h1, h2, h3, h4, _⟩ := query_empty hempty hhost url ctx dom
      obtain ⟨o', h1', h2', h3', h4', _⟩ := query_empty (c := d0) hempty hhost url ctx dom
      rw [h1, h1']
      simp [Outcome.answer, h2, h3, h4, h2', h3', h4']
  rw [h0, Res.map_ok] at key
  obtain ⟨o', h1, h2⟩ := Res.map_eq_ok.1 key
  simp only [Outcome.answer, Answer.verdict.injEq] at h2
  exact ⟨o', h1, h2.1.trans s0.block, by rw [h2.2.1]; exact s0.filter, by rw [h2.2.2]; exact s0.exception⟩

theorem query_network {E : Env} {c d : Client E} {fs : List Filter} (hist : History E c fs) (h : SameNetwork c d) (ht : d.tags = c.tags)
    {url : Bytes} (hu : 0 ∉ url) {ctx : Mask} {dom : Option Bytes} {o : Outcome E} (ho : c.query url ctx dom = .ok o) :
    ∃ o', d.query url ctx dom = .ok o' ∧ SameOutcome o o' := by
  have hold := history_holds hist
  refine query_network' (history_comparable hist) ?_ h ht hu ho
  rcases hold.ready with hr | ⟨rfl, _, hh, _⟩
  · exact .inl ⟨hr.bl false, hr.bl true⟩
  · refine .inr ⟨fun id => ?_, hh⟩
    apply List.eq_nil_iff_forall_not_mem.2
    intro f hf
    have := (hold.mem.1 hf).1
    simp at this

theorem find_network {E : Env} {c d : Client E} {fs : List Filter} (hist : History E c fs) (h : SameNetwork c d) (ht : d.tags = c.tags)
    {url : Bytes} (hu : 0 ∉ url) {ctx : Mask} {dom : Option Bytes} {r : Found} (hr : c.findMatchingFilters url ctx dom = .ok r) :
    ∃ r', d.findMatchingFilters url ctx dom = .ok r' ∧ SameFound r r' :=
  find_same_client (history_comparable hist) h (fun f => by rw [ht]) hu hr

end AdBlock
