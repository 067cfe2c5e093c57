import Verif.Lemmas.OwnershipClient
/-
C40 (no memory is freed twice or freed while borrowed) and C56 (destroying a client frees all its
memory), over all histories of calls through the Node interface.
-/
namespace AdBlock

open Own

private theorem run_good {ops : List OOp} {loaded : Bool} {h : Heap} {c : OClient} {lost : List Nat}
    (hd : Disciplined loaded ops) (g : Good loaded h c lost) :
    ∃ loaded' h' c' lost', run h c ops = .ok (h', c') ∧ Good loaded' h' c' lost' ∧
      ((∀ ls pr, .parse ls pr ∈ ops → ∀ l ∈ ls, l.NoRepeat) → lost' = lost) := by
  induction ops generalizing loaded h c lost with
  | nil => exact ⟨loaded, h, c, lost, rfl, g, fun _ => rfl⟩
  | cons op ops ih =>
    cases op with
    | parse ls pr =>
      obtain ⟨rfl, hd⟩ := hd
      obtain ⟨h1, c1, lost1, e1, g1, hl⟩ := good_parse g ls pr
      obtain ⟨l2, h2, c2, lost2, e2, g2, hl2⟩ := ih hd g1
      refine ⟨l2, h2, c2, lost2, by simp only [run, step, e1, Res.bind_ok, e2], g2, fun hn => ?_⟩
      rw [hl2 fun a b hab => hn a b (by simp [hab]), hl (hn ls pr (by simp))]
      rfl
    | query vs ws =>
      obtain ⟨h1, c1, e1, g1⟩ := good_query g vs ws
      obtain ⟨l2, h2, c2, lost2, e2, g2, hl2⟩ := ih hd g1
      exact ⟨l2, h2, c2, lost2, by simp only [run, step, e1, Res.bind_ok, e2], g2, fun hn => hl2 fun a b hab => hn a b (by simp [hab])⟩
    | serialize =>
      obtain ⟨h1, c1, e1, g1⟩ := good_serialize g
      obtain ⟨l2, h2, c2, lost2, e2, g2, hl2⟩ := ih hd g1
      exact ⟨l2, h2, c2, lost2, by simp only [run, step, e1, Res.bind_ok, e2], g2, fun hn => hl2 fun a b hab => hn a b (by simp [hab])⟩
    | deserialize x =>
      obtain ⟨h1, b, as, os, e1, g1⟩ := good_deserialize g x
      obtain ⟨l2, h2, c2, lost2, e2, g2, hl2⟩ := ih hd g1
      exact ⟨l2, h2, c2, lost2, by simp only [run, step, e1, Res.bind_ok, e2], g2, fun hn => hl2 fun a b hab => hn a b (by simp [hab])⟩
    | clear =>
      obtain ⟨h1, e1, g1⟩ := good_clear g
      obtain ⟨l2, h2, c2, lost2, e2, g2, hl2⟩ := ih hd g1
      exact ⟨l2, h2, c2, lost2, by simp only [run, step, e1, Res.bind_ok, e2], g2, fun hn => hl2 fun a b hab => hn a b (by simp [hab])⟩
    | enableBad =>
      have g1 := good_enableBad g
      obtain ⟨l2, h2, c2, lost2, e2, g2, hl2⟩ := ih hd g1
      exact ⟨l2, h2, c2, lost2, by simp only [run, step, Res.bind_ok, e2], g2, fun hn => hl2 fun a b hab => hn a b (by simp [hab])⟩

private theorem run_then {ops ops' : List OOp} {h h' : Heap} {c c' : OClient} (e : run h c ops = .ok (h', c')) :
    run h c (ops ++ ops') = run h' c' ops' := by
  induction ops generalizing h c with
  | nil => cases e; rfl
  | cons op ops ih =>
    simp only [run] at e
    obtain ⟨⟨h1, c1⟩, e1, e⟩ := Res.bind_eq_ok.1 e
    simp only [List.cons_append, run, e1, Res.bind_ok]
    exact ih e

/-- C40 (partial): as long as no `parse` is applied to loaded data before a `clear`, neither the
calls nor the destruction of the client free a block that is not in use, free a pointer into a
buffer, or read memory that has been freed.  Missing: histories in which `parse` follows
`deserialize` without a `clear`, where the claim is false (`C40_counterexample`). -/
theorem C40_partial (ops : List OOp) (hd : Disciplined false ops) : ∃ h, life ops = .ok h := by
  obtain ⟨l, h, c, lost, e, g, _⟩ := run_good hd Good.empty
  obtain ⟨h', e', _⟩ := good_cleanup g
  exact ⟨h', by simp only [life, e, Res.bind_ok, e']⟩

/-- C40, the violation: in every history in which serialized data with a rule that has any string
are loaded and then anything is parsed, destroying the client frees pointers into the buffer. -/
theorem C40_counterexample (ops : List OOp) (hd : Disciplined false ops) (x : Blob) (ls : List Line) (pr : Bool)
    (hx : ∃ y ∈ x.filters, (y.2.data || y.2.domainList || y.2.tag || y.2.host) = true) :
    life (ops ++ [.deserialize x, .parse ls pr]) = .ub .badFree ∧
    life (ops ++ [.deserialize x, .parse ls pr, .clear]) = .ub .badFree := by
  obtain ⟨l, h, c, lost, e, g, _⟩ := run_good hd Good.empty
  obtain ⟨h1, b, as, os, e1, g1⟩ := good_deserialize g x
  obtain ⟨h2, as2, os2, fs, gs, es, lost2, e2, s2, pf, pg, pe, _⟩ := parse_sound (rest := lost) ls pr
    (by
      intro y hy
      obtain ⟨z, _, rfl⟩ := List.mem_map.1 hy
      simp only [owns, fromBuffer]
      have : ∀ v : Bool, bl (if v then Pt.inner b else .null) = [] := by intro v; cases v <;> rfl
      simp only [this]
      rfl) g1.sound
  generalize hfs : List.map (fun (y : ListId × OFilter) => (y.1, { y.2 with borrowed := false }))
    (x.filters.map fun y => (y.1, fromBuffer b y.2)) = moved at e2 s2
  have bad : ∀ {h}, destroyAll h ((moved ++ fs).map (·.2)) = .ub .badFree := by
    intro h
    apply destroyAll_inner
    obtain ⟨y, hy, hs⟩ := hx
    refine ⟨{ fromBuffer b y.2 with borrowed := false }, ?_, rfl, ?_⟩
    · refine List.mem_map.2 ⟨(y.1, { fromBuffer b y.2 with borrowed := false }), List.mem_append_left _ ?_, rfl⟩
      rw [← hfs]
      exact List.mem_map.2 ⟨(y.1, fromBuffer b y.2), List.mem_map.2 ⟨y, hy, rfl⟩, rfl⟩
    · simp only [Bool.or_eq_true] at hs
      simp only [fromBuffer]
      rcases hs with ((hs | hs) | hs) | hs
      · exact ⟨.inner b, by simp [hs], b, rfl⟩
      · exact ⟨.inner b, by simp [hs], b, rfl⟩
      · exact ⟨.inner b, by simp [hs], b, rfl⟩
      · exact ⟨.inner b, by simp [hs], b, rfl⟩
  constructor
  · simp only [life, run_then e, run, step, e1, e2, Res.bind_ok, OClient.cleanup, OClient.clear, Option.toList, freeAll]
    cases e3 : h2.free b with
    | ub u => rw [delete_ub (p := .start b) e3]; rfl
    | ok h3 => simp only [Res.bind_ok, bad, Res.bind_ub]
  · simp only [life, run_then e, run, step, e1, e2, Res.bind_ok, OClient.clear, bad, Res.bind_ub]

/-- C40: the two histories of the English statement, with one rule each -/
example : (∃ h, life [.parse [{ data := true, dest := some .filters }] false, .serialize,
      .deserialize ⟨[(.filters, ⟨true, false, false, false⟩)], [], [], [0]⟩, .query [some none] [], .clear,
      .parse [{ host := true, data := true, hostSet := some false }] true] = .ok h) ∧
    life [.deserialize ⟨[(.filters, ⟨true, false, false, false⟩)], [], [], [0]⟩, .parse [] false] = .ub .badFree :=
  ⟨C40_partial _ ⟨rfl, rfl, trivial⟩, (C40_counterexample [] trivial _ _ _ ⟨_, List.mem_cons_self, rfl⟩).1⟩

theorem touch_ok {h : Heap} {p : Pt} : h.touch p = .ok () ↔ Readable h p := by
  cases p with
  | null => simp [Heap.touch, Readable]
  | start b => by_cases hb : b ∈ h.live <;> simp [Heap.touch, Readable, hb]
  | inner b => by_cases hb : b ∈ h.live <;> simp [Heap.touch, Readable, hb]

theorem touchAll_ok {h : Heap} {ps : List Pt} : touchAll h ps = .ok () ↔ ∀ p ∈ ps, Readable h p := by
  induction ps with
  | nil => simp [touchAll]
  | cons p ps ih =>
    rw [touchAll]
    constructor
    · intro hh
      obtain ⟨_, h1, h2⟩ := Res.bind_eq_ok.1 hh
      intro q hq
      rcases List.mem_cons.1 hq with rfl | hq
      · exact touch_ok.1 h1
      · exact ih.1 h2 q hq
    · intro hh
      rw [touch_ok.2 (hh p (by simp)), Res.bind_ok, ih.2 fun q hq => hh q (by simp [hq])]

theorem visitAll_readable {K : Type} {h h' : Heap} {fs fs' : List (K × OFilter)}
    (e : visitAll h fs (fs.map fun _ => some none) = .ok (h', fs')) : h' = h ∧ fs' = fs ∧ ∀ f ∈ fs, ReadableFilter h f.2 := by
  induction fs generalizing fs' with
  | nil => cases e; exact ⟨rfl, rfl, by simp⟩
  | cons f fs ih =>
    obtain ⟨k, f⟩ := f
    rw [List.map_cons, visitAll] at e
    obtain ⟨⟨h1, f1⟩, e1, e⟩ := Res.bind_eq_ok.1 e
    obtain ⟨⟨h2, fs2⟩, e2, e⟩ := Res.bind_eq_ok.1 e
    cases e
    unfold visit at e1
    dsimp only at e1
    obtain ⟨_, t1, e1⟩ := Res.bind_eq_ok.1 e1
    obtain ⟨_, t2, e1⟩ := Res.bind_eq_ok.1 e1
    obtain ⟨_, t3, e1⟩ := Res.bind_eq_ok.1 e1
    obtain ⟨_, t4, e1⟩ := Res.bind_eq_ok.1 e1
    obtain ⟨_, t5, e1⟩ := Res.bind_eq_ok.1 e1
    have e1 : (h, f) = (h1, f1) := by simpa [parseDomainsIf] using e1
    cases e1
    obtain ⟨rfl, rfl, h3⟩ := ih e2
    refine ⟨rfl, rfl, fun g hg => ?_⟩
    rcases List.mem_cons.1 hg with rfl | hg
    · exact ⟨touch_ok.1 t1, touch_ok.1 t2, touch_ok.1 t3, touch_ok.1 t4, touch_ok.1 t5⟩
    · exact h3 g hg

theorem serialize_readable {h h' : Heap} {c c' : OClient} (e : c.serialize h = .ok (h', c')) :
    (∀ x ∈ c.entries, Readable h x.2) ∧ (∀ f ∈ c.filters, ReadableFilter h f.2) ∧ ∀ f ∈ c.hostFilters, ReadableFilter h f.2 := by
  unfold OClient.serialize OClient.query at e
  obtain ⟨⟨h1, c1⟩, e1, -⟩ := Res.bind_eq_ok.1 e
  obtain ⟨_, t, e1⟩ := Res.bind_eq_ok.1 e1
  obtain ⟨⟨h2, fs⟩, v1, e1⟩ := Res.bind_eq_ok.1 e1
  obtain ⟨⟨h3, gs⟩, v2, e1⟩ := Res.bind_eq_ok.1 e1
  obtain ⟨rfl, -, r1⟩ := visitAll_readable v1
  obtain ⟨-, -, r2⟩ := visitAll_readable v2
  exact ⟨fun x hx => touchAll_ok.1 t _ (List.mem_map_of_mem hx), r1, r2⟩

/-- **C40** (partial): after such a history, every string of a rule and every entry of a set of domains
the client has lies in memory that is in use, so that any later call can read it. -/
theorem C40_all_readable_partial (ops : List OOp) (hd : Disciplined false ops) :
    ∃ h c, run {} {} ops = .ok (h, c) ∧
      (∀ x ∈ c.entries, Readable h x.2) ∧ (∀ f ∈ c.filters, ReadableFilter h f.2) ∧ ∀ f ∈ c.hostFilters, ReadableFilter h f.2 := by
  obtain ⟨l, h, c, lost, e, g, -⟩ := run_good hd Good.empty
  obtain ⟨h', c', e', -⟩ := good_serialize g
  exact ⟨h, c, e, serialize_readable e'⟩

/-- C40: a history which leaves rules of both kinds and an entry behind; and one whose pointers are
not readable, if the buffer is freed under the client -/
example : ∃ h c, run {} {} [.deserialize ⟨[(.filters, ⟨true, false, false, false⟩)], [(true, ⟨true, false, false, true⟩)], [.domain], [0]⟩] = .ok (h, c) ∧
    c.filters.length = 1 ∧ c.hostFilters.length = 1 ∧ c.entries.length = 1 ∧
    (h.free 0 >>= fun h => c.serialize h) = .ub .useAfterFree ∧
    (h.free 0 >>= fun h => ({ c with filters := [], hostFilters := [] } : OClient).query h [] []) = .ub .useAfterFree :=
  ⟨_, _, rfl, rfl, rfl, rfl, by decide +kernel, by decide +kernel⟩

/-- C56 (partial): if moreover no line repeats a `domain=` or `tag=` option, then after the client
has been destroyed no block is left. -/
theorem C56_partial (ops : List OOp) (hd : Disciplined false ops)
    (hn : ∀ ls pr, OOp.parse ls pr ∈ ops → ∀ l ∈ ls, l.NoRepeat) : ∃ h, life ops = .ok h ∧ h.live = [] := by
  obtain ⟨l, h, c, lost, e, g, hl⟩ := run_good hd Good.empty
  obtain ⟨h', e', s⟩ := good_cleanup g
  refine ⟨h', by simp only [life, e, Res.bind_ok, e'], ?_⟩
  rw [hl hn] at s
  exact s.nil

private def domainLine : Line :=
  { options := [bs%"domain=a.com", bs%"tag=x"]
    data := true
    dest := some .noFpDomain
    parsed := some (true, false)
    entries := [.domain] }

/-- C56: a history that meets the hypotheses -/
example : ∃ h, life [.parse [domainLine] true, .query [some none] [], .serialize, .enableBad] = .ok h ∧ h.live = [] := by
  apply C56_partial
  · exact ⟨rfl, trivial⟩
  · intro ls pr h l hl
    simp only [List.mem_cons, OOp.parse.injEq, reduceCtorEq, or_false, List.not_mem_nil] at h
    rw [h.1, List.mem_singleton] at hl
    subst hl
    exact ⟨.inl rfl, by decide, by decide⟩

/-- C56, the violation: a line with two `domain=` options leaves two blocks behind (it is parsed
twice, filter.cc:258 and 263 overwrite the pointer to the first list of domains). -/
theorem C56_counterexample : ∃ h, life [.parse [{ options := [bs%"domain=a.com", bs%"domain=b.com"], data := true, dest := some .filters }]
    false] = .ok h ∧ h.live.length = 2 := by
  refine ⟨⟨[21, 8], 24⟩, ?_, ?_⟩ <;> decide +kernel

end AdBlock
