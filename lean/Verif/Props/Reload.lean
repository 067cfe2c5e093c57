import Verif.Lemmas.Reload
import Verif.Props.Serialize
/-
C62: saving a client and going on with one that has loaded the data is invisible.
-/
namespace AdBlock
open Spec

/-- a client that was never saved, and what the session has made of it -/
structure Parallel {E : Env} (c d : Client E) (fs : List Filter) : Prop where
  hist : History E c fs
  representable : ∀ f ∈ fs, LeftOut true true f ∨ Representable f
  same : SameNetwork c d
  tags : d.tags = c.tags

theorem parallel_step {E : Env} {c d c' : Client E} {fs : List Filter} (h : Parallel c d fs) {o : Op} (ho : SavableOp E.bad o) {a : Answer}
    (hs : step c o = .ok (a, c')) : ∃ a' d' fs', step d o = .ok (a', d') ∧ AlikeAnswer a a' ∧ Parallel c' d' fs' := by
  cases o with
  | parse input pr =>
    simp only [step] at hs
    obtain ⟨c1, h1, hs⟩ := Res.map_eq_ok.1 hs
    cases hs
    obtain ⟨gs, hg, _⟩ := C20_arrays_filled h1
    obtain ⟨d', e1, e2, e3⟩ := parse_same h.same h1
    refine ⟨.done, d', fs ++ gs, by simp only [step, e1]; rfl, .done, .parse h.hist ho.1 h1 hg, ?_, e2, ?_⟩
    · intro f hf
      rcases List.mem_append.1 hf with hf | hf
      · exact h.representable f hf
      · exact ho.2 gs hg f hf
    · rw [e3, h.tags, parse_tags h1]
  | «matches» url ctx dom =>
    simp only [step] at hs
    obtain ⟨o, h1, hs⟩ := Res.map_eq_ok.1 hs
    cases hs
    obtain ⟨o', e1, e2⟩ := query_network h.hist h.same h.tags ho h1
    have h3 : c.matches url ctx dom = .ok (o.block, { c with stats := o.stats, badFps := o.badFps }) := by
      unfold Client.matches; rw [h1]; rfl
    refine ⟨.verdict o'.block o'.filter o'.exception, { d with stats := o'.stats, badFps := o'.badFps }, fs,
      by simp only [step, e1]; rfl, ?_, .query h.hist h3, h.representable, ?_, h.tags⟩
    · rw [e2.block]; exact .verdict e2.filter e2.exception
    · exact ⟨h.same.lists, h.same.pageRules, h.same.numHostAnchoredFilters, h.same.numHostAnchoredExceptionFilters, h.same.bloom,
        h.same.exceptionBloom, h.same.hostSet, h.same.hostExceptionSet, h.same.domSets⟩
  | find url ctx dom =>
    simp only [step] at hs
    obtain ⟨r, h1, hs⟩ := Res.map_eq_ok.1 hs
    cases hs
    obtain ⟨r', e1, e2⟩ := find_network h.hist h.same h.tags ho h1
    refine ⟨.verdict r'.block r'.filter r'.exception, d, fs, by simp only [step, e1]; rfl, ?_, h⟩
    rw [e2.block]; exact .verdict e2.filter e2.exception
  | addTag t =>
    cases hs
    refine ⟨.done, d.addTag t, fs, rfl, .done, .addTag t h.hist, h.representable, ?_, ?_⟩
    · unfold Client.addTag Client.tagExists
      rw [h.tags]
      split
      · exact h.same
      · exact ⟨h.same.lists, h.same.pageRules, h.same.numHostAnchoredFilters, h.same.numHostAnchoredExceptionFilters, h.same.bloom,
          h.same.exceptionBloom, h.same.hostSet, h.same.hostExceptionSet, h.same.domSets⟩
    · unfold Client.addTag Client.tagExists
      rw [h.tags]
      split
      · exact h.tags
      · rfl
  | removeTag t =>
    cases hs
    refine ⟨.done, d.removeTag t, fs, rfl, .done, .removeTag t h.hist, h.representable, ?_, ?_⟩
    · exact ⟨h.same.lists, h.same.pageRules, h.same.numHostAnchoredFilters, h.same.numHostAnchoredExceptionFilters, h.same.bloom,
        h.same.exceptionBloom, h.same.hostSet, h.same.hostExceptionSet, h.same.domSets⟩
    · show d.tags.erase t = c.tags.erase t
      rw [h.tags]
  | tagExists t =>
    cases hs
    refine ⟨.bool (d.tagExists t), d, fs, rfl, ?_, h⟩
    rw [show d.tagExists t = c.tagExists t by unfold Client.tagExists; rw [h.tags]]
    exact .bool _
  | clear =>
    cases hs
    exact ⟨.done, d.clear, [], rfl, .done, .clear c, by simp, ⟨fun _ _ => .nil, fun _ => ⟨[], List.suffix_refl _, .nil⟩, rfl, rfl, rfl,
      rfl, .null, .null, fun _ => .null⟩, h.tags⟩
  | enableBadFingerprintDetection =>
    cases hs
    refine ⟨.done, _, fs, rfl, .done, .enableBadFingerprintDetection h.hist, h.representable, ?_, ?_⟩
    · unfold Client.enableBadFingerprintDetection
      split <;> split <;>
      exact ⟨h.same.lists, h.same.pageRules, h.same.numHostAnchoredFilters, h.same.numHostAnchoredExceptionFilters, h.same.bloom,
        h.same.exceptionBloom, h.same.hostSet, h.same.hostExceptionSet, h.same.domSets⟩
    · unfold Client.enableBadFingerprintDetection
      split <;> split <;> exact h.tags

theorem parallel_reload {E : Env} {c d : Client E} {fs : List Filter} (h : Parallel c d fs) (hf : Fits c) :
    ∃ s d', d.serialize true true = .ok s ∧
      ({ Client.fresh E with tags := d.tags } : Client E).deserialize s.buffer = .ok (some d') ∧ Parallel c d' fs := by
  have hs := history_storable h.hist h.representable hf.1
  have hw := history_written h.hist
  have hsize : (c.bytes true true).length < 2 ^ 31 := hf.2 _ (serialize_eq hw true true)
  have hl : ∀ id, Pointwise SameRule (c.storedList true true id) (d.storedList true true id) := by
    intro id
    have := h.same.lists id
    cases id <;> simp only [Client.storedList] <;> first | exact .nil | exact this (by simp)
  obtain ⟨h1, h2⟩ := network_bytes h.same hw hl
  have h3 := serialize_eq h1 true true
  rw [h2] at h3
  obtain ⟨d', e1, e2, e3, -⟩ := deserialize_eq hs hsize ({ Client.fresh E with tags := d.tags } : Client E) []
  rw [List.append_nil] at e1
  exact ⟨_, d', h3, e1, h.hist, h.representable, same_network e2, e3.trans h.tags⟩

theorem parallel_session {E : Env} {calls : List SaveOp} {c d c' : Client E} {fs : List Filter} (h : Parallel c d fs)
    (ho : ∀ o, .op o ∈ calls → SavableOp E.bad o) {as : List Answer} (hr : run c (calls.filterMap SaveOp.op?) = .ok (as, c'))
    (hf : ∀ pre post, calls = pre ++ .reload :: post → ∀ as c', run c (pre.filterMap SaveOp.op?) = .ok (as, c') → Fits c') :
    ∃ as' d', Session d calls as' d' ∧ Pointwise AlikeAnswer as as' ∧ SameNetwork c' d' ∧ d'.tags = c'.tags := by
  induction calls generalizing c d fs as with
  | nil =>
    cases hr
    exact ⟨[], d, .nil, .nil, h.same, h.tags⟩
  | cons call calls ih =>
    cases call with
    | op o =>
      simp only [List.filterMap_cons, SaveOp.op?, run] at hr
      obtain ⟨⟨a, c1⟩, h1, hr⟩ := Res.bind_eq_ok.1 hr
      obtain ⟨⟨as1, c2⟩, h2, hr⟩ := Res.bind_eq_ok.1 hr
      cases hr
      obtain ⟨a', d1, fs1, e1, e2, e3⟩ := parallel_step h (ho o (by simp)) h1
      obtain ⟨as', d', e4, e5, e6⟩ := ih e3 (fun o ho' => ho o (by simp [ho'])) h2 fun pre post hp as c' hc => by
        refine hf (.op o :: pre) post (by rw [hp]; rfl) (a :: as) c' ?_
        simp only [List.filterMap_cons, SaveOp.op?, run]
        rw [h1, Res.bind_ok]
        dsimp only
        rw [hc]; rfl
      exact ⟨a' :: as', d', .op e1 e4, .cons e2 e5, e6⟩
    | reload =>
      obtain ⟨s, d1, e1, e2, e3⟩ := parallel_reload h (hf [] calls rfl [] c rfl)
      obtain ⟨as', d', e4, e5, e6⟩ := ih e3 (fun o ho' => ho o (by simp [ho'])) hr fun pre post hp as c' hc =>
        hf (.reload :: pre) post (by rw [hp]; rfl) as c' hc
      exact ⟨as', d', .reload e1 e2 e4, e5, e6⟩

/-- C62, with the restrictions of C35 and for data smaller than 2 GB: in any session of loading
lists, queries, tags, clearing and detection of bad fingerprints, it makes no difference to any
answer whether at any number of places the client is saved and the session goes on with a new
client that has loaded the data.  (What is freed then is the subject of C40.) -/
theorem C62_reloading_is_invisible_partial {E : Env} {calls : List SaveOp} {as : List Answer} {c : Client E}
    (ho : ∀ o, .op o ∈ calls → SavableOp E.bad o)
    (hr : run (Client.fresh E) (calls.filterMap SaveOp.op?) = .ok (as, c))
    (hf : ∀ pre post, calls = pre ++ .reload :: post →
      ∀ as c, run (Client.fresh E) (pre.filterMap SaveOp.op?) = .ok (as, c) → Fits c) :
    ∃ as' d, Session (Client.fresh E) calls as' d ∧ Pointwise AlikeAnswer as as' := by
  obtain ⟨as', d, h1, h2, _⟩ := parallel_session ⟨.new, by simp, network_refl _, rfl⟩ ho hr hf
  exact ⟨as', d, h1, h2⟩

/-- a session in which a list is loaded, the client is saved, a tag is added, the client is saved
again, and then asked about a request -/
def savedSession : List SaveOp :=
  [.op (.parse storedList₀ false), .reload, .op (.addTag bs%"x"), .reload, .op (.matches bs%"https://a.com/banner" FOScript none)]

/-- the hypotheses of C62 can be met -/
example : ∃ as as' d, run (Client.fresh toyEnv) (savedSession.filterMap SaveOp.op?) = .ok as ∧
    Session (Client.fresh toyEnv) savedSession as' d ∧ Pointwise AlikeAnswer as.1 as' := by
  obtain ⟨c, h, hr, hn, ht, hs, hp⟩ := stored_history
  have hok : ((run (Client.fresh toyEnv) (savedSession.filterMap SaveOp.op?)).isOk) = true := by decide +kernel
  obtain ⟨as, has⟩ := Res.isOk_iff.1 hok
  have fits : ∀ c' : Client toyEnv, c'.numHostAnchoredFilters = c.numHostAnchoredFilters →
      c'.numHostAnchoredExceptionFilters = c.numHostAnchoredExceptionFilters → c'.serialize true true = c.serialize true true → Fits c' := by
    intro c' h1 h2 h3
    refine ⟨by rw [h1, h2]; exact hn, fun s e => ?_⟩
    rw [h3, serialize_eq (history_written h)] at e
    cases e
    exact hs true true
  suffices hh : (∀ o, .op o ∈ savedSession → SavableOp toyEnv.bad o) ∧ ∀ pre post, savedSession = pre ++ .reload :: post →
      ∀ as c, run (Client.fresh toyEnv) (pre.filterMap SaveOp.op?) = .ok (as, c) → Fits c by
    obtain ⟨as', d, h1, h2⟩ := C62_reloading_is_invisible_partial hh.1 has hh.2
    exact ⟨as, as', d, has, h1, h2⟩
  constructor
  · intro o ho
    simp only [savedSession, List.mem_cons, SaveOp.op.injEq, List.not_mem_nil, or_false, reduceCtorEq, false_or] at ho
    rcases ho with rfl | rfl | rfl
    · refine ⟨by decide +kernel, fun fs hf f hff => ?_⟩
      cases reads_unique hf (show Reads toyEnv.bad false (lines storedList₀) storedRules from by
        rw [show lines storedList₀ = [bs%"banner", bs%"@@goodies$script,tag=x"] by decide +kernel]
        exact .cons (e := .addFingerprint bs%"banner") (by decide +kernel)
          (.cons (e := .addExceptionFingerprint bs%"goodie") (by decide +kernel) .nil))
      exact .inr (hr f hff)
    · trivial
    · show 0 ∉ _
      decide +kernel
  · intro pre post e as c' hc
    have : pre = [.op (.parse storedList₀ false)] ∨
        pre = [.op (.parse storedList₀ false), .reload, .op (.addTag bs%"x")] := by
      unfold savedSession at e
      rcases pre with _ | ⟨a, pre⟩
      · simp at e
      simp only [List.cons_append, List.cons.injEq] at e
      obtain ⟨rfl, e⟩ := e
      rcases pre with _ | ⟨a, pre⟩
      · exact .inl rfl
      simp only [List.cons_append, List.cons.injEq] at e
      obtain ⟨rfl, e⟩ := e
      rcases pre with _ | ⟨a, pre⟩
      · simp at e
      simp only [List.cons_append, List.cons.injEq] at e
      obtain ⟨rfl, e⟩ := e
      rcases pre with _ | ⟨a, pre⟩
      · exact .inr rfl
      simp only [List.cons_append, List.cons.injEq] at e
      obtain ⟨rfl, e⟩ := e
      rcases pre with _ | ⟨a, pre⟩ <;> simp at e
    rcases this with rfl | rfl
    · simp only [List.filterMap_cons, List.filterMap_nil, SaveOp.op?, run, step, hp, Res.map_ok, Res.bind_ok] at hc
      cases hc
      exact fits _ rfl rfl rfl
    · simp only [List.filterMap_cons, List.filterMap_nil, SaveOp.op?, run, step, hp, Res.map_ok, Res.bind_ok] at hc
      cases hc
      have : c.addTag bs%"x" = { c with tags := [bs%"x"] } := by
        unfold Client.addTag Client.tagExists
        rw [ht]
        rfl
      rw [this]
      exact fits _ rfl rfl rfl

end AdBlock
