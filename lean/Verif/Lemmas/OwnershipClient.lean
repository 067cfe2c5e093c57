import Verif.Lemmas.Ownership
/-
The operations of the ownership model keep the invariant `Good`: the blocks in use are those
the client owns (and those lost by repeated options).
-/
namespace AdBlock.Own

def ownsAll {K : Type} (fs : List (K × OFilter)) : List Nat := fs.flatMap fun x => owns x.2

theorem ownsAll_append {K : Type} (fs gs : List (K × OFilter)) : ownsAll (fs ++ gs) = ownsAll fs ++ ownsAll gs := by
  simp [ownsAll]

theorem ownsAll_cons {K : Type} (x : K × OFilter) (fs : List (K × OFilter)) : ownsAll (x :: fs) = owns x.2 ++ ownsAll fs := by
  simp [ownsAll]

@[simp] theorem ownsAll_nil {K : Type} : ownsAll ([] : List (K × OFilter)) = [] := rfl

theorem ownsAll_map {K : Type} (fs : List (K × OFilter)) : (fs.map (·.2)).flatMap owns = ownsAll fs := by
  rw [ownsAll, List.flatMap_map]

/-- the blocks a client owns -/
def own (c : OClient) : List Nat :=
  ownsAll c.filters ++ (c.arrays ++ (ownsAll c.hostFilters ++ (c.objects.map (·.2) ++ c.buffer.toList)))

theorem clear_sound {h : Heap} {c : OClient} {rest : List Nat} (hf : ∀ x ∈ c.filters, Tidy x.2) (hg : ∀ x ∈ c.hostFilters, Tidy x.2)
    (s : Sound h (ownsAll c.filters ++ (c.arrays ++ (ownsAll c.hostFilters ++ (c.objects.map (·.2) ++ rest))))) :
    ∃ h', c.clear h = .ok (h', { buffer := c.buffer }) ∧ Sound h' rest := by
  rw [← ownsAll_map, ← ownsAll_map] at s
  obtain ⟨h1, e1, s1⟩ := s.destroyAll (fun f hm => by
    obtain ⟨x, hx, rfl⟩ := List.mem_map.1 hm
    exact hf x hx)
  obtain ⟨h2, e2, s2⟩ := s1.freeAll
  obtain ⟨h3, e3, s3⟩ := s2.destroyAll (fun f hm => by
    obtain ⟨x, hx, rfl⟩ := List.mem_map.1 hm
    exact hg x hx)
  obtain ⟨h4, e4, s4⟩ := s3.freeAll
  exact ⟨h4, by simp only [OClient.clear, e1, e2, e3, e4, Res.bind_ok, Res.pure_eq], s4⟩

theorem pass1_sound {h : Heap} {bs : List Nat} (ls : List Line) (s : Sound h bs) :
    ∃ h' lost, pass1 h ls = .ok h' ∧ Sound h' (lost ++ bs) ∧ ((∀ l ∈ ls, l.NoRepeat) → lost = []) := by
  induction ls generalizing h bs with
  | nil => exact ⟨h, [], rfl, s, fun _ => rfl⟩
  | cons l ls ih =>
    obtain ⟨p1, _, _, lost, s1, hl⟩ := parseLine_sound l false s
    obtain ⟨s2, p2, _⟩ := parseDomainsIf_plain l.parsed p1 s1
    obtain ⟨h3, e3, s3⟩ := s2.destroy p2.tidy
    obtain ⟨h4, lost', e4, s4, hl'⟩ := ih s3
    refine ⟨h4, lost' ++ lost, ?_, by rw [List.append_assoc]; exact s4, fun hn => ?_⟩
    · simp only [pass1, e3, Res.bind_ok, e4]
    · rw [hl (hn l (by simp)), hl' (fun x hx => hn x (by simp [hx]))]
      rfl

/-- Where an entry of a set of domains points to. -/
def EntryOk (fs : List (ListId × OFilter)) (p : Pt) : Prop :=
  p = .null ∨ ∃ b, p = .inner b ∧ ∃ x ∈ fs, x.2.domainList = .start b ∧ Plain x.2

theorem storeLine_sound {h : Heap} {c : OClient} {rest : List Nat} (l : Line) (pr : Bool) (s : Sound h (own c ++ rest)) :
    ∃ h' fs gs es lost, storeLine h c l pr = .ok (h', { c with
        filters := c.filters ++ fs, hostFilters := c.hostFilters ++ gs, entries := c.entries ++ es }) ∧
      Sound h' (ownsAll fs ++ (ownsAll gs ++ (own c ++ (lost ++ rest)))) ∧ (∀ x ∈ fs, Plain x.2) ∧ (∀ x ∈ gs, Plain x.2) ∧
      (∀ e ∈ es, EntryOk fs e.2) ∧ (l.NoRepeat → lost = []) := by
  obtain ⟨p1, d1, a1, lost, s1, hl⟩ := parseLine_sound l pr s
  -- the copy in the hash set
  have hc : ∃ h2 gs, addCopy (parseLine h l pr).1 c (parseLine h l pr).2 l.hostSet =
        (h2, { c with hostFilters := c.hostFilters ++ gs }) ∧ (∀ x ∈ gs, Plain x.2) ∧
      Sound h2 (owns (parseLine h l pr).2 ++ (ownsAll gs ++ (own c ++ (lost ++ rest)))) := by
    cases l.hostSet with
    | none =>
      refine ⟨_, [], by rw [List.append_nil]; rfl, by simp, s1.perm fun b => ?_⟩
      simp only [List.count_append, ownsAll_nil, List.count_nil]
      omega
    | some e =>
      obtain ⟨p2, s2⟩ := copyFilter_sound p1.borrowed s1
      refine ⟨_, [(e, (copyFilter (parseLine h l pr).1 (parseLine h l pr).2).2)], rfl, by simpa using p2, s2.perm fun b => ?_⟩
      simp only [List.count_append, ownsAll_cons, ownsAll_nil, List.count_nil]
      omega
  obtain ⟨h2, gs, e2, pg, s2⟩ := hc
  obtain ⟨s3, p3, dl⟩ := parseDomainsIf_plain l.parsed p1 s2
  unfold storeLine
  simp only [e2]
  cases hd : l.dest with
  | none =>
    obtain ⟨h4, e4, s4⟩ := s3.destroy p3.tidy
    refine ⟨h4, [], gs, [], lost, ?_, s4, by simp, pg, by simp, hl⟩
    simp only [e4, Res.bind_ok, Res.pure_eq, List.append_nil]
  | some k =>
    generalize hf : (parseDomainsIf h2 (parseLine h l pr).2 l.parsed).2 = f at s3 p3 dl
    have hs : swapData {} f = (f, {}) := by
      obtain ⟨b, _⟩ := f
      have : b = false := p3.borrowed
      subst this
      rfl
    obtain ⟨h4, e4, s4⟩ := Sound.destroy (f := {}) (bs := owns f ++ (ownsAll gs ++ (own c ++ (lost ++ rest)))) Plain.empty.tidy s3
    refine ⟨h4, [(k, f)], gs, l.entries.map fun d => (d, into f.domainList), lost, ?_, s4.perm fun b => ?_, by simpa using p3, pg, ?_, hl⟩
    · simp only [hs, e4, Res.bind_ok, Res.pure_eq]
    · simp only [ownsAll_cons, ownsAll_nil, List.append_nil]
    · intro e he
      obtain ⟨d, _, rfl⟩ := List.mem_map.1 he
      cases hdl : f.domainList with
      | null => exact .inl rfl
      | start b => exact .inr ⟨b, rfl, (k, f), by simp, hdl, p3⟩
      | inner b => exact absurd hdl (p3.domainList b)

theorem EntryOk.mono {fs gs : List (ListId × OFilter)} {p : Pt} (h : EntryOk fs p) (hs : ∀ x ∈ fs, x ∈ gs) : EntryOk gs p :=
  h.imp id fun ⟨b, e, x, hx, h⟩ => ⟨b, e, x, hs x hx, h⟩

theorem pass2_sound {h : Heap} {c : OClient} {rest : List Nat} (ls : List Line) (pr : Bool) (s : Sound h (own c ++ rest)) :
    ∃ h' fs gs es lost, pass2 h c pr ls = .ok (h', { c with
        filters := c.filters ++ fs, hostFilters := c.hostFilters ++ gs, entries := c.entries ++ es }) ∧
      Sound h' (ownsAll fs ++ (ownsAll gs ++ (own c ++ (lost ++ rest)))) ∧ (∀ x ∈ fs, Plain x.2) ∧ (∀ x ∈ gs, Plain x.2) ∧
      (∀ e ∈ es, EntryOk fs e.2) ∧ ((∀ l ∈ ls, l.NoRepeat) → lost = []) := by
  induction ls generalizing h c rest with
  | nil =>
    refine ⟨h, [], [], [], [], ?_, s, by simp, by simp, by simp, fun _ => rfl⟩
    simp only [pass2, List.append_nil]
  | cons l ls ih =>
    obtain ⟨h1, fs, gs, es, lost, e1, s1, pf, pg, pe, hl⟩ := storeLine_sound l pr s
    obtain ⟨h2, fs', gs', es', lost', e2, s2, pf', pg', pe', hl'⟩ := ih (h := h1)
      (c := { c with filters := c.filters ++ fs, hostFilters := c.hostFilters ++ gs, entries := c.entries ++ es })
      (rest := lost ++ rest) (s1.perm fun b => by
        simp only [own, ownsAll_append, List.count_append]
        omega)
    refine ⟨h2, fs ++ fs', gs ++ gs', es ++ es', lost' ++ lost, ?_, s2.perm fun b => ?_, ?_, ?_, ?_, ?_⟩
    · simp only [pass2, e1, Res.bind_ok, e2, List.append_assoc]
    · simp only [own, ownsAll_append, List.count_append]
      omega
    · intro x hx
      rcases List.mem_append.1 hx with h | h
      · exact pf x h
      · exact pf' x h
    · intro x hx
      rcases List.mem_append.1 hx with h | h
      · exact pg x h
      · exact pg' x h
    · intro x hx
      rcases List.mem_append.1 hx with h | h
      · exact (pe x h).mono (by intro y hy; simp [hy])
      · exact (pe' x h).mono (by intro y hy; simp [hy])
    · intro hn
      rw [hl (hn l (by simp)), hl' (fun x hx => hn x (by simp [hx]))]
      rfl

/-- `parse`: what were borrowed filters are not marked as such afterwards -/
theorem parse_sound {h : Heap} {c : OClient} {rest : List Nat} (ls : List Line) (pr : Bool)
    (hb : ∀ x ∈ c.filters, owns { x.2 with borrowed := false } = owns x.2) (s : Sound h (own c ++ rest)) :
    ∃ h' arrays objects fs gs es lost, c.parse h ls pr = .ok (h', { c with
        arrays := arrays, objects := objects
        filters := c.filters.map (fun x => (x.1, { x.2 with borrowed := false })) ++ fs
        hostFilters := c.hostFilters ++ gs, entries := c.entries ++ es }) ∧
      Sound h' (own { c with
        arrays := arrays, objects := objects
        filters := c.filters.map (fun x => (x.1, { x.2 with borrowed := false })) ++ fs
        hostFilters := c.hostFilters ++ gs, entries := c.entries ++ es } ++ (lost ++ rest)) ∧
      (∀ x ∈ fs, Plain x.2) ∧ (∀ x ∈ gs, Plain x.2) ∧
      (∀ e ∈ es, EntryOk fs e.2) ∧ ((∀ l ∈ ls, l.NoRepeat) → lost = []) := by
  have s0 := (s.perm (bs' := c.objects.map (·.2) ++ (ownsAll c.filters ++ (c.arrays ++ (ownsAll c.hostFilters ++
    (c.buffer.toList ++ rest))))) (by intro b; simp only [own, List.count_append]; omega)).createMissing [0, 1, 2, 3, 4, 5, 6, 7]
  generalize hx : createMissing h c.objects [0, 1, 2, 3, 4, 5, 6, 7] = x at s0
  obtain ⟨h1, objects⟩ := x
  dsimp only at s0
  obtain ⟨h2, lost, e2, s2, hl⟩ := pass1_sound ls s0
  have s3 := s2.allocN 10
  generalize hy : allocN 10 h2 = y at s3
  obtain ⟨h3, arrays⟩ := y
  dsimp only at s3
  have hm : (c.filters.map fun kf => (kf.1, swapData {} kf.2)).map (fun x => (x.1, x.2.1)) =
      c.filters.map fun x => (x.1, { x.2 with borrowed := false }) := by
    rw [List.map_map]
    rfl
  have hr : (c.filters.map fun kf => (kf.1, swapData {} kf.2)).map (fun x => { x.2.2 with borrowed := true }) =
      c.filters.map fun _ => ({ borrowed := true } : OFilter) := by
    rw [List.map_map]
    rfl
  obtain ⟨h4, e4, s4⟩ := Sound.destroyAll (h := h3) (fs := c.filters.map fun _ => ({ borrowed := true } : OFilter))
    (by
      intro f hf
      obtain ⟨_, _, rfl⟩ := List.mem_map.1 hf
      exact ⟨nofun, nofun, nofun⟩)
    (bs := c.arrays ++ (ownsAll c.filters ++ (ownsAll c.hostFilters ++ (objects.map (·.2) ++ (c.buffer.toList ++
      (arrays ++ (lost ++ rest)))))))
    (s3.perm fun b => by
      have : ∀ l : List (ListId × OFilter), (l.map fun _ => ({ borrowed := true } : OFilter)).flatMap owns = [] := by
        intro l
        induction l with
        | nil => rfl
        | cons x l ih => rw [List.map_cons, List.flatMap_cons, ih]; rfl
      rw [this]
      simp only [List.count_append, List.count_nil]
      omega)
  obtain ⟨h5, e5, s5⟩ := s4.freeAll
  have howns : ownsAll (c.filters.map fun x => (x.1, { x.2 with borrowed := false })) = ownsAll c.filters := by
    have : ∀ l : List (ListId × OFilter), (∀ x ∈ l, owns { x.2 with borrowed := false } = owns x.2) →
        ownsAll (l.map fun x => (x.1, { x.2 with borrowed := false })) = ownsAll l := by
      intro l hl
      induction l with
      | nil => rfl
      | cons x l ih =>
        rw [List.map_cons, ownsAll_cons, ownsAll_cons, ih (fun y hy => hl y (by simp [hy])), hl x (by simp)]
    exact this _ hb
  obtain ⟨h6, fs, gs, es, lost', e6, s6, pf, pg, pe, hl'⟩ := pass2_sound (h := h5)
    (c := { c with
      arrays := arrays, objects := objects
      filters := c.filters.map fun x => (x.1, { x.2 with borrowed := false }) }) (rest := lost ++ rest) ls pr
    (s5.perm fun b => by
      simp only [own, howns, List.count_append]
      omega)
  refine ⟨h6, arrays, objects, fs, gs, es, lost' ++ lost, ?_, s6.perm fun b => ?_, pf, pg, pe, fun hn => ?_⟩
  · unfold OClient.parse
    simp only [hx, e2, Res.bind_ok, hy, hr, e4, e5, hm, e6]
  · simp only [own, ownsAll_append, howns, List.count_append]
    omega
  · rw [hl hn, hl' hn]
    rfl

/-- a filter read from the buffer -/
structure Loaded (buffer : Option Nat) (f : OFilter) : Prop where
  borrowed : f.borrowed = true
  domains : NotInner f.domains
  antiDomains : NotInner f.antiDomains
  inside : ∀ p ∈ [f.data, f.ruleDefinition, f.domainList, f.tag, f.host], p = .null ∨ ∃ b, p = .inner b ∧ buffer = some b

def Fine (loaded : Bool) (buffer : Option Nat) (f : OFilter) : Prop := Plain f ∨ (loaded = true ∧ Loaded buffer f)

theorem Fine.tidy {loaded : Bool} {buffer : Option Nat} {f : OFilter} (h : Fine loaded buffer f) : Tidy f := by
  rcases h with h | ⟨_, h⟩
  · exact h.tidy
  · exact ⟨h.domains, h.antiDomains, fun e => by rw [h.borrowed] at e; cases e⟩

structure Good (loaded : Bool) (h : Heap) (c : OClient) (lost : List Nat) : Prop where
  sound : Sound h (own c ++ lost)
  filters : ∀ x ∈ c.filters, Fine loaded c.buffer x.2
  hostFilters : ∀ x ∈ c.hostFilters, Fine loaded c.buffer x.2
  entries : ∀ e ∈ c.entries, EntryOk c.filters e.2 ∨ (loaded = true ∧ ∃ b, e.2 = .inner b ∧ c.buffer = some b)

theorem Good.empty : Good false {} {} [] := by
  refine ⟨Sound.empty, fun x hx => ?_, fun x hx => ?_, fun x hx => ?_⟩ <;> cases hx

theorem good_clear {loaded : Bool} {h : Heap} {c : OClient} {lost : List Nat} (g : Good loaded h c lost) :
    ∃ h', c.clear h = .ok (h', { buffer := c.buffer }) ∧ Good false h' { buffer := c.buffer } lost := by
  obtain ⟨h', e, s⟩ := clear_sound (rest := c.buffer.toList ++ lost) (fun x hx => (g.filters x hx).tidy)
    (fun x hx => (g.hostFilters x hx).tidy) (g.sound.perm fun b => by simp only [own, List.count_append]; omega)
  refine ⟨h', e, ⟨s.perm fun b => ?_, fun x hx => ?_, fun x hx => ?_, fun x hx => ?_⟩⟩
  · simp only [own, ownsAll_nil, List.map_nil, List.nil_append]
  all_goals cases hx

theorem good_cleanup {loaded : Bool} {h : Heap} {c : OClient} {lost : List Nat} (g : Good loaded h c lost) :
    ∃ h', c.cleanup h = .ok h' ∧ Sound h' lost := by
  obtain ⟨h1, e1, s1⟩ := Sound.freeAll (as := c.buffer.toList) (bs := ownsAll c.filters ++ (c.arrays ++ (ownsAll c.hostFilters ++
    (c.objects.map (·.2) ++ lost)))) (g.sound.perm fun b => by simp only [own, List.count_append]; omega)
  obtain ⟨h2, e2, s2⟩ := clear_sound (fun x hx => (g.filters x hx).tidy) (fun x hx => (g.hostFilters x hx).tidy) s1
  exact ⟨h2, by simp only [OClient.cleanup, e1, Res.bind_ok, e2, Res.pure_eq], s2⟩

theorem good_deserialize {loaded : Bool} {h : Heap} {c : OClient} {lost : List Nat} (g : Good loaded h c lost) (x : Blob) :
    ∃ h' b arrays objects, c.deserialize h x = .ok (h', { arrays := arrays, objects := objects, buffer := some b
                                                          filters := x.filters.map fun y => (y.1, fromBuffer b y.2)
                                                          hostFilters := x.hostFilters.map fun y => (y.1, fromBuffer b y.2)
                                                          entries := x.entries.map fun d => (d, .inner b) }) ∧
      Good true h' { arrays := arrays, objects := objects, buffer := some b
                     filters := x.filters.map fun y => (y.1, fromBuffer b y.2)
                     hostFilters := x.hostFilters.map fun y => (y.1, fromBuffer b y.2)
                     entries := x.entries.map fun d => (d, .inner b) } lost := by
  obtain ⟨h1, e1, s1⟩ := Sound.freeAll (as := c.buffer.toList) (bs := ownsAll c.filters ++ (c.arrays ++ (ownsAll c.hostFilters ++
    (c.objects.map (·.2) ++ lost)))) (g.sound.perm fun b => by simp only [own, List.count_append]; omega)
  have s2 := s1.alloc
  generalize hb : h1.alloc = y at s2
  obtain ⟨h2, b⟩ := y
  dsimp only at s2
  obtain ⟨h3, e3, s3⟩ := clear_sound (h := h2) (c := c) (rest := b :: lost) (fun x hx => (g.filters x hx).tidy)
    (fun x hx => (g.hostFilters x hx).tidy) (s2.perm fun b => by simp only [List.count_append, List.count_cons]; omega)
  have s4 := s3.allocN 10
  generalize hy : allocN 10 h3 = y at s4
  obtain ⟨h4, arrays⟩ := y
  dsimp only at s4
  have s5 := Sound.createMissing (objects := []) (bs := arrays ++ (b :: lost)) x.objects s4
  generalize hz : createMissing h4 [] x.objects = z at s5
  obtain ⟨h5, objects⟩ := z
  dsimp only at s5
  have none : ∀ {K : Type} (l : List (K × Layout)), ownsAll (l.map fun y => (y.1, fromBuffer b y.2)) = [] := by
    intro K l
    induction l with
    | nil => rfl
    | cons y l ih => rw [List.map_cons, ownsAll_cons, ih]; rfl
  have ld : ∀ y : Layout, Fine true (some b) (fromBuffer b y) := by
    intro y
    refine .inr ⟨rfl, rfl, nofun, nofun, ?_⟩
    intro p hp
    have key : ∀ v : Bool, (if v then Pt.inner b else .null) = .null ∨
        ∃ b', (if v then Pt.inner b else .null) = .inner b' ∧ some b = some b' := by
      intro v
      cases v with
      | true => exact .inr ⟨b, rfl, rfl⟩
      | false => exact .inl rfl
    simp only [fromBuffer, List.mem_cons, List.not_mem_nil, or_false] at hp
    rcases hp with rfl | rfl | rfl | rfl | rfl
    · exact key _
    · exact .inl rfl
    · exact key _
    · exact key _
    · exact key _
  refine ⟨h5, b, arrays, objects, ?_, s5.perm fun b => ?_, ?_, ?_, ?_⟩
  · simp only [OClient.deserialize, e1, Res.bind_ok, hb, e3, hy, hz, Res.pure_eq]
  · simp only [own, none, List.count_append, List.count_cons, List.count_nil, Option.toList]
    omega
  · intro y hy
    obtain ⟨z, _, rfl⟩ := List.mem_map.1 hy
    exact ld _
  · intro y hy
    obtain ⟨z, _, rfl⟩ := List.mem_map.1 hy
    exact ld _
  · intro y hy
    obtain ⟨z, _, rfl⟩ := List.mem_map.1 hy
    exact .inr ⟨rfl, b, rfl, rfl⟩

theorem good_parse {h : Heap} {c : OClient} {lost : List Nat} (g : Good false h c lost) (ls : List Line) (pr : Bool) :
    ∃ h' c' lost', c.parse h ls pr = .ok (h', c') ∧ Good false h' c' (lost' ++ lost) ∧ ((∀ l ∈ ls, l.NoRepeat) → lost' = []) := by
  have pl : ∀ {buffer : Option Nat} {f : OFilter}, Fine false buffer f → Plain f := by
    intro buffer f h
    exact h.resolve_right fun h => by cases h.1
  have keep : c.filters.map (fun x => (x.1, { x.2 with borrowed := false })) = c.filters := by
    have : ∀ l : List (ListId × OFilter), (∀ x ∈ l, Plain x.2) → l.map (fun x => (x.1, { x.2 with borrowed := false })) = l := by
      intro l hl
      induction l with
      | nil => rfl
      | cons x l ih =>
        rw [List.map_cons, ih (fun y hy => hl y (by simp [hy]))]
        congr 1
        obtain ⟨k, b, _⟩ := x
        have : b = false := (hl _ List.mem_cons_self).borrowed
        subst this
        rfl
    exact this _ fun x hx => pl (g.filters x hx)
  obtain ⟨h', arrays, objects, fs, gs, es, lost', e, s, pf, pg, pe, hl⟩ := parse_sound (h := h) (c := c) (rest := lost) ls pr
    (by
      intro x hx
      unfold owns
      rw [(pl (g.filters x hx)).borrowed]) g.sound
  rw [keep] at e s
  refine ⟨h', _, lost', e, ⟨s, ?_, ?_, ?_⟩, hl⟩
  · intro x hx
    rcases List.mem_append.1 hx with h | h
    · exact g.filters x h
    · exact .inl (pf x h)
  · intro x hx
    rcases List.mem_append.1 hx with h | h
    · exact g.hostFilters x h
    · exact .inl (pg x h)
  · intro x hx
    left
    rcases List.mem_append.1 hx with h | h
    · rcases g.entries x h with h | h
      · exact h.mono (by intro y hy; simp [hy])
      · cases h.1
    · exact (pe x h).mono (by intro y hy; simp [hy])

theorem touch_start {h : Heap} {bs : List Nat} (s : Sound h bs) {p : Pt} (hp : NotInner p) (hm : ∀ b ∈ bl p, b ∈ bs) :
    h.touch p = .ok () := by
  cases p with
  | null => rfl
  | start b => exact if_pos (s.live.2 (hm b (by simp)))
  | inner b => exact absurd rfl (hp b)

theorem visit_sound {h : Heap} {f : OFilter} {rest : List Nat} {loaded : Bool} {buffer : Option Nat}
    (look : Option (Option (Bool × Bool))) (hf : Fine loaded buffer f) (hb : ∀ b, buffer = some b → b ∈ rest)
    (s : Sound h (owns f ++ rest)) :
    ∃ h' f', visit h f look = .ok (h', f') ∧ Fine loaded buffer f' ∧ Sound h' (owns f' ++ rest) ∧
      f'.domainList = f.domainList ∧ (Plain f → Plain f') := by
  cases look with
  | none => exact ⟨h, f, rfl, hf, s, rfl, id⟩
  | some found =>
    have tt : ∀ p ∈ [f.data, f.ruleDefinition, f.domainList, f.tag, f.host], h.touch p = .ok () := by
      intro p hp
      rcases hf with hf | ⟨_, hf⟩
      · simp only [List.mem_cons, List.not_mem_nil, or_false] at hp
        rcases hp with rfl | rfl | rfl | rfl | rfl
        · exact touch_start s hf.data (by intro b hb; rw [hf.owns]; simp [hb])
        · exact touch_start s hf.ruleDefinition (by intro b hb; rw [hf.owns]; simp [hb])
        · exact touch_start s hf.domainList (by intro b hb; rw [hf.owns]; simp [hb])
        · exact touch_start s hf.tag (by intro b hb; rw [hf.owns]; simp [hb])
        · exact touch_start s hf.host (by intro b hb; rw [hf.owns]; simp [hb])
      · rcases hf.inside p hp with rfl | ⟨b, rfl, e⟩
        · rfl
        · exact if_pos (s.live.2 (by simp [hb b e]))
    obtain ⟨s1, n1, n2, b1, e1, e2, e3, e4, e5⟩ := parseDomainsIf_sound found hf.tidy.domains hf.tidy.antiDomains s
    refine ⟨_, _, ?_, ?_, s1, e3, ?_⟩
    · simp only [visit, tt f.data (by simp), tt f.ruleDefinition (by simp), tt f.domainList (by simp), tt f.tag (by simp),
        tt f.host (by simp), Res.bind_ok, Res.pure_eq]
    · rcases hf with hf | ⟨hl, hf⟩
      · exact .inl (parseDomainsIf_plain found hf s).2.1
      · exact .inr ⟨hl, b1.trans hf.borrowed, n1, n2, by rw [e1, e2, e3, e4, e5]; exact hf.inside⟩
    · exact fun hf => (parseDomainsIf_plain found hf s).2.1

theorem visitAll_sound {K : Type} {h : Heap} {fs : List (K × OFilter)} {rest : List Nat} {loaded : Bool} {buffer : Option Nat}
    (vs : List (Option (Option (Bool × Bool)))) (hf : ∀ x ∈ fs, Fine loaded buffer x.2) (hb : ∀ b, buffer = some b → b ∈ rest)
    (s : Sound h (ownsAll fs ++ rest)) :
    ∃ h' fs', visitAll h fs vs = .ok (h', fs') ∧ (∀ x ∈ fs', Fine loaded buffer x.2) ∧ Sound h' (ownsAll fs' ++ rest) ∧
      ∀ x ∈ fs, Plain x.2 → ∃ x' ∈ fs', x'.2.domainList = x.2.domainList ∧ Plain x'.2 := by
  induction fs generalizing h rest vs with
  | nil => exact ⟨h, [], by simp [visitAll], by simp, s, by simp⟩
  | cons x fs ih =>
    cases vs with
    | nil => exact ⟨h, x :: fs, by simp [visitAll], hf, s, fun y hy hp => ⟨y, hy, rfl, hp⟩⟩
    | cons v vs =>
      obtain ⟨k, f⟩ := x
      rw [ownsAll_cons, List.append_assoc] at s
      obtain ⟨h1, f1, e1, p1, s1, d1, k1⟩ := visit_sound v (hf (k, f) (by simp))
        (fun b hx => List.mem_append_right _ (hb b hx)) s
      obtain ⟨h2, fs2, e2, p2, s2, k2⟩ := ih (rest := owns f1 ++ rest) vs (fun y hy => hf y (by simp [hy]))
        (fun b hx => List.mem_append_right _ (hb b hx))
        (s1.perm fun b => by simp only [List.count_append]; omega)
      refine ⟨h2, (k, f1) :: fs2, ?_, ?_, s2.perm fun b => ?_, ?_⟩
      · simp only [visitAll, e1, Res.bind_ok, e2, Res.pure_eq]
      · intro y hy
        rcases List.mem_cons.1 hy with rfl | hy
        · exact p1
        · exact p2 y hy
      · simp only [ownsAll_cons, List.count_append]
        omega
      · intro y hy hp
        rcases List.mem_cons.1 hy with rfl | hy
        · exact ⟨(k, f1), by simp, d1, k1 hp⟩
        · obtain ⟨z, hz, h⟩ := k2 y hy hp
          exact ⟨z, by simp [hz], h⟩

theorem touchAll_ok {h : Heap} {ps : List Pt} (hp : ∀ p ∈ ps, h.touch p = .ok ()) : touchAll h ps = .ok () := by
  induction ps with
  | nil => rfl
  | cons p ps ih => simp only [touchAll, hp p (by simp), Res.bind_ok, ih (fun q hq => hp q (by simp [hq]))]

theorem mem_ownsAll {K : Type} {fs : List (K × OFilter)} {x : K × OFilter} {b : Nat} (hx : x ∈ fs) (hb : b ∈ owns x.2) :
    b ∈ ownsAll fs := List.mem_flatMap.2 ⟨x, hx, hb⟩

theorem good_query {loaded : Bool} {h : Heap} {c : OClient} {lost : List Nat} (g : Good loaded h c lost)
    (vs ws : List (Option (Option (Bool × Bool)))) :
    ∃ h' c', c.query h vs ws = .ok (h', c') ∧ Good loaded h' c' lost := by
  have e0 : touchAll h (c.entries.map (·.2)) = .ok () := by
    apply touchAll_ok
    intro p hp
    obtain ⟨e, he, rfl⟩ := List.mem_map.1 hp
    rcases g.entries e he with (h0 | ⟨b, h0, x, hx, hd, hp⟩) | ⟨_, b, h0, hb⟩
    · rw [h0]; rfl
    · rw [h0]
      refine if_pos (g.sound.live.2 ?_)
      have : b ∈ owns x.2 := by rw [hp.owns, hd]; simp
      exact List.mem_append_left _ (List.mem_append_left _ (mem_ownsAll hx this))
    · rw [h0]
      exact if_pos (g.sound.live.2 (by simp [own, hb]))
  obtain ⟨h1, fs, e1, p1, s1, k1⟩ := visitAll_sound (rest := c.arrays ++ (ownsAll c.hostFilters ++ (c.objects.map (·.2) ++
      (c.buffer.toList ++ lost)))) vs g.filters (by intro b hb; simp [hb])
    (g.sound.perm fun b => by simp only [own, List.count_append]; omega)
  obtain ⟨h2, gs, e2, p2, s2, _⟩ := visitAll_sound (h := h1) (rest := ownsAll fs ++ (c.arrays ++ (c.objects.map (·.2) ++
      (c.buffer.toList ++ lost)))) ws g.hostFilters (by intro b hb; simp [hb])
    (s1.perm fun b => by simp only [List.count_append]; omega)
  refine ⟨h2, { c with filters := fs, hostFilters := gs }, ?_, s2.perm fun b => ?_, p1, p2, ?_⟩
  · simp only [OClient.query, e0, e1, e2, Res.bind_ok, Res.pure_eq]
  · simp only [own, List.count_append]
    omega
  · intro e he
    rcases g.entries e he with (h0 | ⟨b, h0, x, hx, hd, hp⟩) | h0
    · exact .inl (.inl h0)
    · obtain ⟨y, hy, hd', hp'⟩ := k1 x hx hp
      exact .inl (.inr ⟨b, h0, y, hy, hd'.trans hd, hp'⟩)
    · exact .inr h0

theorem good_serialize {loaded : Bool} {h : Heap} {c : OClient} {lost : List Nat} (g : Good loaded h c lost) :
    ∃ h' c', c.serialize h = .ok (h', c') ∧ Good loaded h' c' lost := by
  obtain ⟨h1, c1, e1, g1⟩ := good_query g (c.filters.map fun _ => some none) (c.hostFilters.map fun _ => some none)
  obtain ⟨h2, e2, s2⟩ := g1.sound.alloc.free
  exact ⟨h2, c1, by simp only [OClient.serialize, e1, Res.bind_ok, e2, Res.pure_eq], s2, g1.filters, g1.hostFilters, g1.entries⟩

theorem good_enableBad {loaded : Bool} {h : Heap} {c : OClient} {lost : List Nat} (g : Good loaded h c lost) :
    Good loaded (c.enableBad h).1 (c.enableBad h).2 lost := by
  have s := (g.sound.perm (bs' := c.objects.map (·.2) ++ (ownsAll c.filters ++ (c.arrays ++ (ownsAll c.hostFilters ++
    (c.buffer.toList ++ lost))))) (by intro b; simp only [own, List.count_append]; omega)).createMissing [8]
  refine ⟨s.perm fun b => ?_, g.filters, g.hostFilters, g.entries⟩
  simp only [own, OClient.enableBad, List.count_append]
  omega

/-! ### the violation -/

theorem delete_ub {h : Heap} {p : Pt} {u : UB} (e : h.delete p = .ub u) : u = .badFree := by
  cases p with
  | null => cases e
  | start b =>
    simp only [Heap.delete, Heap.free] at e
    split at e
    · cases e
    · cases e; rfl
  | inner b => cases e; rfl

theorem bind_ub_cases {α β : Type} {x : Res α} {f : α → Res β} {u : UB} (e : (x >>= f) = .ub u) :
    x = .ub u ∨ ∃ a, x = .ok a ∧ f a = .ub u := by
  cases x with
  | ok a => exact .inr ⟨a, rfl, e⟩
  | ub v => cases e; exact .inl rfl

theorem destroy_ub {h : Heap} {f : OFilter} {u : UB} (e : destroy h f = .ub u) : u = .badFree := by
  unfold Own.destroy at e
  rcases bind_ub_cases e with e | ⟨h1, _, e⟩
  · exact delete_ub e
  rcases bind_ub_cases e with e | ⟨h1, _, e⟩
  · exact delete_ub e
  split at e
  · cases e
  rcases bind_ub_cases e with e | ⟨h1, _, e⟩
  · exact delete_ub e
  rcases bind_ub_cases e with e | ⟨h1, _, e⟩
  · exact delete_ub e
  rcases bind_ub_cases e with e | ⟨h1, _, e⟩
  · exact delete_ub e
  rcases bind_ub_cases e with e | ⟨h1, _, e⟩
  · exact delete_ub e
  exact delete_ub e

/-- the destructor of a filter with a pointer into the buffer that is not marked as borrowed -/
theorem destroy_inner {h h' : Heap} {f : OFilter} (hf : f.borrowed = false)
    (hi : ∃ p ∈ [f.data, f.domainList, f.tag, f.host], ∃ b, p = .inner b) : destroy h f ≠ .ok h' := by
  intro e
  have nd : ∀ {p : Pt} {h h' : Heap}, h.delete p = .ok h' → NotInner p := by
    rintro p h h' e b rfl
    cases e
  unfold Own.destroy at e
  obtain ⟨h1, _, e⟩ := Res.bind_eq_ok.1 e
  obtain ⟨h2, _, e⟩ := Res.bind_eq_ok.1 e
  rw [hf] at e
  simp only [Bool.false_eq_true, if_false] at e
  obtain ⟨h3, e3, e⟩ := Res.bind_eq_ok.1 e
  obtain ⟨h4, e4, e⟩ := Res.bind_eq_ok.1 e
  obtain ⟨h5, e5, e⟩ := Res.bind_eq_ok.1 e
  obtain ⟨h6, e6, e⟩ := Res.bind_eq_ok.1 e
  obtain ⟨p, hp, b, rfl⟩ := hi
  simp only [List.mem_cons, List.not_mem_nil, or_false] at hp
  rcases hp with hp | hp | hp | hp
  · exact nd e3 b hp.symm
  · exact nd e5 b hp.symm
  · exact nd e6 b hp.symm
  · exact nd e b hp.symm

theorem destroyAll_inner {fs : List OFilter} {h : Heap}
    (hf : ∃ f ∈ fs, f.borrowed = false ∧ ∃ p ∈ [f.data, f.domainList, f.tag, f.host], ∃ b, p = .inner b) :
    destroyAll h fs = .ub .badFree := by
  induction fs generalizing h with
  | nil => obtain ⟨f, hf, _⟩ := hf; cases hf
  | cons g fs ih =>
    obtain ⟨f, hm, hb, hi⟩ := hf
    rw [destroyAll]
    cases e : destroy h g with
    | ub u => rw [destroy_ub e]; rfl
    | ok h1 =>
      rcases List.mem_cons.1 hm with rfl | hm
      · exact absurd e (destroy_inner hb hi)
      · rw [Res.bind_ok]
        exact ih ⟨f, hm, hb, hi⟩

end AdBlock.Own
