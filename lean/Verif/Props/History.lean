import Verif.SpecOps
import Verif.Props.Verdict
import Verif.Model.Toy
/-
Sequences of operations: C29, C31, C32, C33.
-/
namespace AdBlock
open Spec

section
variable {E : Env}

/-! ### generalities -/

theorem run_append (c : Client E) (ops ops' : List Op) :
    run c (ops ++ ops') = run c ops >>= fun (as, c1) => run c1 ops' >>= fun (as', c2) => .ok (as ++ as', c2) := by
  induction ops generalizing c with
  | nil =>
    simp only [List.nil_append, run, Res.bind_ok]
    cases run c ops' <;> rfl
  | cons op ops ih =>
    simp only [List.cons_append, run]
    cases step c op with
    | ub u => rfl
    | ok x =>
      obtain ⟨a, c1⟩ := x
      simp only [Res.bind_ok, ih]
      cases run c1 ops with
      | ub u => rfl
      | ok y =>
        obtain ⟨as, c2⟩ := y
        simp only [Res.bind_ok]
        cases run c2 ops' <;> rfl

/-- Every client reached by a sequence of operations has a history in the sense of the
theorems about verdicts. -/
theorem run_history {c c' : Client E} {fs : List Filter} {ops : List Op} {as : List Answer} (hist : History E c fs)
    (h0 : ∀ op ∈ ops, ∀ input preserve, op = .parse input preserve → 0 ∉ input) (h : run c ops = .ok (as, c')) :
    ∃ fs', History E c' fs' := by
  induction ops generalizing c fs as with
  | nil => cases h; exact ⟨fs, hist⟩
  | cons op ops ih =>
    obtain ⟨⟨a, c1⟩, h1, h⟩ := Res.bind_eq_ok.1 h
    obtain ⟨⟨as', c2⟩, h2, h⟩ := Res.bind_eq_ok.1 h
    cases h
    have hop : ∀ op' ∈ ops, ∀ input preserve, op' = .parse input preserve → 0 ∉ input :=
      fun op' h' => h0 op' (by simp [h'])
    suffices ∃ fs1, History E c1 fs1 by
      obtain ⟨fs1, h3⟩ := this
      exact ih h3 hop h2
    cases op with
    | parse input pr =>
      obtain ⟨c', hp, h1⟩ := Res.map_eq_ok.1 h1
      cases h1
      have h00 := h0 _ (List.mem_cons_self ..) input pr rfl
      obtain ⟨n, b, _, h2, _⟩ := parse_ok_iff.1 hp
      obtain ⟨gs, hg, _⟩ := Index.fill (fun l hl h => h00 (mem_lines hl 0 h).1) (history_holds hist).index h2
      exact ⟨_, .parse hist h00 hp hg⟩
    | «matches» url ctx dom =>
      obtain ⟨o, ho, h1⟩ := Res.map_eq_ok.1 h1
      cases h1
      exact ⟨fs, .query (url := url) (ctx := ctx) (dom := dom) (b := o.block) hist (by
        unfold Client.matches; rw [ho]; rfl)⟩
    | find url ctx dom =>
      obtain ⟨r, _, h1⟩ := Res.map_eq_ok.1 h1
      cases h1
      exact ⟨fs, hist⟩
    | addTag t => cases h1; exact ⟨fs, .addTag t hist⟩
    | removeTag t => cases h1; exact ⟨fs, .removeTag t hist⟩
    | tagExists t => cases h1; exact ⟨fs, hist⟩
    | clear => cases h1; exact ⟨_, .clear _⟩
    | enableBadFingerprintDetection => cases h1; exact ⟨fs, .enableBadFingerprintDetection hist⟩

/-! ### C29 -/

/-- what the caller learns from a query -/
def Outcome.answer (o : Outcome E) : Answer := .verdict o.block o.filter o.exception

theorem discover_same (bf bf' : List Bytes) (url : Bytes) (b : Option E.fp.B) :
    (fun _ => ()) <$> discoverMatchingPrefix E bf url b = (fun _ => ()) <$> discoverMatchingPrefix E bf' url b := by
  unfold discoverMatchingPrefix
  cases windows kFingerprintSize url with
  | nil => rfl
  | cons w ws =>
    cases b with
    | none => rfl
    | some b =>
      simp only
      cases (w :: ws).find? (E.fp.mem b) <;> rfl

/-- The client with other statistics and another set of bad fingerprints. -/
def Client.relabel (c : Client E) (st : Stats) (bf : Option (List Bytes)) (buf : Option Bytes) : Client E :=
  { c with stats := st, badFps := bf, deserializedBuffer := buf }

theorem discover_bind {α : Type} (bf bf' : List Bytes) (url : Bytes) (b : Option E.fp.B) (k k' : List Bytes → α) (hk : ∀ x y, k x = k' y) :
    (k <$> discoverMatchingPrefix E bf url b) = k' <$> discoverMatchingPrefix E bf' url b := by
  have := discover_same bf bf' url b
  cases h1 : discoverMatchingPrefix E bf url b with
  | ub u =>
    rw [h1] at this
    cases h2 : discoverMatchingPrefix E bf' url b with
    | ub v => rw [h2] at this; cases this; rfl
    | ok y => rw [h2] at this; cases this
  | ok x =>
    rw [h1] at this
    cases h2 : discoverMatchingPrefix E bf' url b with
    | ub v => rw [h2] at this; cases this
    | ok y => simp [hk x y]

/-- the part of the result of `blockPhase` that matters -/
def BlockRes.core : BlockRes E → Answer ⊕ Option Filter
  | .done o => .inl o.answer
  | .hit f => .inr f

/-- the end of each half of a query: nothing was found, which may be a false positive of a
fingerprint -/
def detect {α : Type} (b : Option E.fp.B) (url : Bytes) (a : α) : Option (List Bytes) → Res α
  | none => .ok a
  | some l => discoverMatchingPrefix E l url b >>= fun _ => .ok a

theorem detect_same {α : Type} (b : Option E.fp.B) (url : Bytes) (bf bf' : Option (List Bytes))
    (h : bf.isSome = bf'.isSome ∨ b.isSome = true) (a : α) : detect b url a bf = detect b url a bf' := by
  let k : List Bytes → Res α := fun _ => .ok a
  have hk : ∀ x, k x = .ok a := fun _ => rfl
  show detect b url a bf = detect b url a bf'
  have key : ∀ l, b.isSome = true → (discoverMatchingPrefix E l url b >>= k) = .ok a := by
    intro l hb
    obtain ⟨r, hr⟩ := discover_defined l url hb
    rw [hr, Res.bind_ok, hk r]
  cases bf with
  | none =>
    cases bf' with
    | none => rfl
    | some l' =>
      simp only [Option.isSome_none, Option.isSome_some, Bool.false_eq_true, false_or] at h
      simp only [detect]; first | exact key _ h | exact (key _ h).symm
  | some l =>
    cases bf' with
    | none =>
      simp only [Option.isSome_none, Option.isSome_some, Bool.true_eq_false, false_or] at h
      simp only [detect]; first | exact key _ h | exact (key _ h).symm
    | some l' =>
      simp only [detect]
      have := discover_bind l l' url b (fun _ => a) (fun _ => a) (fun _ _ => rfl)
      cases h1 : discoverMatchingPrefix E l url b with
      | ub u =>
        rw [h1] at this
        cases h2 : discoverMatchingPrefix E l' url b with
        | ub v => rw [h2] at this; cases this; rfl
        | ok y => rw [h2] at this; cases this
      | ok x =>
        rw [h1] at this
        cases h2 : discoverMatchingPrefix E l' url b with
        | ub v => rw [h2] at this; cases this
        | ok y => simp

/-- the part of the result of `blockPhase` that matters, in continuation form -/
theorem blockPhase_relabel (c : Client E) (st : Stats) (bf : Option (List Bytes)) (buf : Option Bytes)
    (hbf : bf.isSome = c.badFps.isSome ∨ c.bloom.isSome = true) (url : Bytes) (ctx : Mask) (dom : Option Bytes) :
    BlockRes.core <$> (c.relabel st bf buf).blockPhase url ctx dom = BlockRes.core <$> c.blockPhase url ctx dom := by
  unfold Client.blockPhase
  have e : (c.relabel st bf buf).noFpPhase .domain .antiDomain .noFpDomain .noFpAntiDomain .noFp url ctx dom =
    c.noFpPhase .domain .antiDomain .noFpDomain .noFpAntiDomain .noFp url ctx dom := rfl
  rw [e]
  cases c.noFpPhase .domain .antiDomain .noFpDomain .noFpAntiDomain .noFp url ctx dom with
  | ub u => rfl
  | ok r =>
    cases r with
    | some f => rfl
    | none =>
      simp only [Res.bind_ok]
      have e : isHostAnchoredHashSetMiss E (c.relabel st bf buf).tags (Client.callMatchNoBloom url ctx dom) (c.relabel st bf buf).hostSet
        (getUrlHost url) = isHostAnchoredHashSetMiss E c.tags (Client.callMatchNoBloom url ctx dom) c.hostSet (getUrlHost url) := rfl
      rw [e]
      cases isHostAnchoredHashSetMiss E c.tags (Client.callMatchNoBloom url ctx dom) c.hostSet (getUrlHost url) with
      | ub u => rfl
      | ok r =>
        simp only [Res.bind_ok]
        have e : bloomMiss E (c.relabel st bf buf).bloom url = bloomMiss E c.bloom url := rfl
        rw [e]
        by_cases h1 : (bloomMiss E c.bloom url && r.miss) = true
        · rw [if_pos h1, if_pos h1]; rfl
        · rw [if_neg h1, if_neg h1]
          by_cases h2 : (!r.miss) = true
          · rw [if_pos h2, if_pos h2]
          · rw [if_neg h2, if_neg h2]
            have e : hasMatchingFilters (c.relabel st bf buf).tags (Client.callMatch E url ctx dom) ((c.relabel st bf buf).lists .filters) =
              hasMatchingFilters c.tags (Client.callMatch E url ctx dom) (c.lists .filters) := rfl
            rw [e]
            cases hasMatchingFilters c.tags (Client.callMatch E url ctx dom) (c.lists .filters) with
            | ub u => rfl
            | ok m =>
              cases m with
              | some f => rfl
              | none =>
                simp only [Res.bind_ok]
                have := detect_same (E := E) c.bloom url bf c.badFps hbf
                  (Sum.inl (.verdict false none none) : Answer ⊕ Option Filter)
                refine Eq.trans (Eq.trans ?_ this) ?_
                · show BlockRes.core <$> (match bf with | none => _ | some l => discoverMatchingPrefix E l url c.bloom >>= _) = _
                  cases bf with
                  | none => rfl
                  | some l => simp only [detect]; cases discoverMatchingPrefix E l url c.bloom <;> rfl
                · cases c.badFps with
                  | none => rfl
                  | some l => simp only [detect]; cases discoverMatchingPrefix E l url c.bloom <;> rfl

theorem exceptionPhase_relabel (c : Client E) (st : Stats) (bf : Option (List Bytes)) (buf : Option Bytes)
    (hbf : bf.isSome = c.badFps.isSome ∨ c.exceptionBloom.isSome = true) (mf : Option Filter) (url : Bytes) (ctx : Mask) (dom : Option Bytes) :
    Outcome.answer <$> (c.relabel st bf buf).exceptionPhase mf url ctx dom = Outcome.answer <$> c.exceptionPhase mf url ctx dom := by
  unfold Client.exceptionPhase
  have e : (c.relabel st bf buf).noFpPhase .domainException .antiDomainException .noFpDomainException .noFpAntiDomainException .noFpException url ctx dom =
    c.noFpPhase .domainException .antiDomainException .noFpDomainException .noFpAntiDomainException .noFpException url ctx dom := rfl
  rw [e]
  cases c.noFpPhase .domainException .antiDomainException .noFpDomainException .noFpAntiDomainException .noFpException url ctx dom with
  | ub u => rfl
  | ok r =>
    cases r with
    | some f => rfl
    | none =>
      simp only [Res.bind_ok]
      have e : isHostAnchoredHashSetMiss E (c.relabel st bf buf).tags (Client.callMatchNoBloom url ctx dom) (c.relabel st bf buf).hostExceptionSet
        (getUrlHost url) = isHostAnchoredHashSetMiss E c.tags (Client.callMatchNoBloom url ctx dom) c.hostExceptionSet (getUrlHost url) := rfl
      rw [e]
      cases isHostAnchoredHashSetMiss E c.tags (Client.callMatchNoBloom url ctx dom) c.hostExceptionSet (getUrlHost url) with
      | ub u => rfl
      | ok r =>
        simp only [Res.bind_ok]
        have e : bloomMiss E (c.relabel st bf buf).exceptionBloom url = bloomMiss E c.exceptionBloom url := rfl
        rw [e]
        by_cases h1 : (bloomMiss E c.exceptionBloom url && r.miss) = true
        · rw [if_pos h1, if_pos h1]; rfl
        · rw [if_neg h1, if_neg h1]
          by_cases h2 : (!r.miss) = true
          · rw [if_pos h2, if_pos h2]; rfl
          · rw [if_neg h2, if_neg h2]
            have e : hasMatchingFilters (c.relabel st bf buf).tags (Client.callMatch E url ctx dom) ((c.relabel st bf buf).lists .exception) =
              hasMatchingFilters c.tags (Client.callMatch E url ctx dom) (c.lists .exception) := rfl
            rw [e]
            cases hasMatchingFilters c.tags (Client.callMatch E url ctx dom) (c.lists .exception) with
            | ub u => rfl
            | ok m =>
              cases m with
              | some f => rfl
              | none =>
                simp only [Res.bind_ok]
                have := detect_same (E := E) c.exceptionBloom url bf c.badFps hbf
                  (.verdict true mf none : Answer)
                refine Eq.trans (Eq.trans ?_ this) ?_
                · show Outcome.answer <$> (match bf with | none => _ | some l => discoverMatchingPrefix E l url c.exceptionBloom >>= _) = _
                  cases bf with
                  | none => rfl
                  | some l => simp only [detect]; cases discoverMatchingPrefix E l url c.exceptionBloom <;> rfl
                · cases c.badFps with
                  | none => rfl
                  | some l => simp only [detect]; cases discoverMatchingPrefix E l url c.exceptionBloom <;> rfl

/-- Verdicts do not depend on the statistics and the bad fingerprints found. -/
theorem query_relabel (c : Client E) (st : Stats) (bf : Option (List Bytes)) (buf : Option Bytes)
    (hbf : bf.isSome = c.badFps.isSome ∨ (c.bloom.isSome = true ∧ c.exceptionBloom.isSome = true)) (url : Bytes) (co : Mask) (dom : Option Bytes) :
    Outcome.answer <$> (c.relabel st bf buf).query url co dom = Outcome.answer <$> c.query url co dom := by
  unfold Client.query
  obtain ⟨b, hb⟩ := C03_protocol_check_in_bounds url url.length
  rw [hb]
  cases b with
  | false => rfl
  | true =>
    simp only [Res.bind_ok, Bool.not_true, Bool.false_eq_true, ↓reduceIte]
    have h1 := blockPhase_relabel c st bf buf (hbf.imp_right And.left) url (resolveContext url co dom) dom
    have h2 := fun mf => exceptionPhase_relabel c st bf buf (hbf.imp_right And.right) mf url (resolveContext url co dom) dom
    cases hx : c.blockPhase url (resolveContext url co dom) dom with
    | ub u =>
      rw [hx] at h1
      cases hy : (c.relabel st bf buf).blockPhase url (resolveContext url co dom) dom with
      | ub v => rw [hy] at h1; cases h1; rfl
      | ok y => rw [hy] at h1; cases h1
    | ok x =>
      rw [hx] at h1
      cases hy : (c.relabel st bf buf).blockPhase url (resolveContext url co dom) dom with
      | ub v => rw [hy] at h1; cases h1
      | ok y =>
        rw [hy] at h1
        simp only [Res.map_ok, Res.ok.injEq] at h1
        simp only [Res.bind_ok]
        cases x with
        | done o =>
          cases y with
          | done o' => simp only [BlockRes.core, Sum.inl.injEq] at h1; simp [h1]
          | hit f => cases h1
        | hit f =>
          cases y with
          | done o' => cases h1
          | hit f' => simp only [BlockRes.core, Sum.inr.injEq] at h1; subst h1; exact h2 f'

/-- Two clients that differ at most in what queries change. -/
def Alike (c d : Client E) : Prop := ∃ st bf buf, d = c.relabel st bf buf ∧ bf.isSome = c.badFps.isSome

theorem Alike.refl (c : Client E) : Alike c c := ⟨c.stats, c.badFps, c.deserializedBuffer, rfl, rfl⟩

theorem Alike.trans {a b c : Client E} (h1 : Alike a b) (h2 : Alike b c) : Alike a c := by
  obtain ⟨s1, f1, u1, rfl, e1⟩ := h1
  obtain ⟨s2, f2, u2, rfl, e2⟩ := h2
  exact ⟨s2, f2, u2, rfl, e2.trans e1⟩

theorem blockPhase_badFps {c : Client E} {url : Bytes} {ctx : Mask} {dom : Option Bytes} {o : Outcome E}
    (h : c.blockPhase url ctx dom = .ok (.done o)) : o.badFps.isSome = c.badFps.isSome := by
  unfold Client.blockPhase at h
  obtain ⟨r, _, h⟩ := Res.bind_eq_ok.1 h
  cases r with
  | some f => cases h
  | none =>
    simp only at h
    obtain ⟨r, _, h⟩ := Res.bind_eq_ok.1 h
    split at h
    · cases h; rfl
    · split at h
      · cases h
      · obtain ⟨m, _, h⟩ := Res.bind_eq_ok.1 h
        cases m with
        | some f => cases h
        | none =>
          simp only at h
          cases hb : c.badFps with
          | none => rw [hb] at h; cases h; rfl
          | some l =>
            rw [hb] at h
            obtain ⟨l', _, h⟩ := Res.bind_eq_ok.1 h
            cases h; rfl

theorem exceptionPhase_badFps {c : Client E} {url : Bytes} {ctx : Mask} {dom : Option Bytes} {mf : Option Filter} {o : Outcome E}
    (h : c.exceptionPhase mf url ctx dom = .ok o) : o.badFps.isSome = c.badFps.isSome := by
  unfold Client.exceptionPhase at h
  obtain ⟨r, _, h⟩ := Res.bind_eq_ok.1 h
  cases r with
  | some f => cases h; rfl
  | none =>
    simp only at h
    obtain ⟨r, _, h⟩ := Res.bind_eq_ok.1 h
    split at h
    · cases h; rfl
    · split at h
      · cases h; rfl
      · obtain ⟨m, _, h⟩ := Res.bind_eq_ok.1 h
        cases m with
        | some f => cases h; rfl
        | none =>
          simp only at h
          cases hb : c.badFps with
          | none => rw [hb] at h; cases h; rfl
          | some l =>
            rw [hb] at h
            obtain ⟨l', _, h⟩ := Res.bind_eq_ok.1 h
            cases h; rfl

/-- a query keeps bad fingerprint detection on or off -/
theorem query_badFps {c : Client E} {url : Bytes} {co : Mask} {dom : Option Bytes} {o : Outcome E} (h : c.query url co dom = .ok o) :
    o.badFps.isSome = c.badFps.isSome := by
  unfold Client.query at h
  obtain ⟨b, _, h⟩ := Res.bind_eq_ok.1 h
  cases b with
  | false => cases h; rfl
  | true =>
    simp only [Bool.not_true, Bool.false_eq_true, ↓reduceIte] at h
    obtain ⟨x, hx, h⟩ := Res.bind_eq_ok.1 h
    cases x with
    | done o' => cases h; exact blockPhase_badFps hx
    | hit f => exact exceptionPhase_badFps h

/-- An operation on clients that differ at most in what queries change: the answers are the
same, and the clients afterwards again differ at most in that. -/
theorem step_alike {c d : Client E} (h : Alike c d) (op : Op) :
    (∃ u, step c op = .ub u ∧ step d op = .ub u) ∨
    ∃ a c' d', step c op = .ok (a, c') ∧ step d op = .ok (a, d') ∧ Alike c' d' := by
  obtain ⟨st, bf, buf, rfl, hbf⟩ := h
  cases op with
  | parse input pr =>
    have e : (c.relabel st bf buf).parse input pr = (fun c' => c'.relabel st bf buf) <$> c.parse input pr := by
      rw [parse_lines, parse_lines]
      have e : (c.relabel st bf buf).startBuild = c.startBuild := rfl
      rw [e]
      cases countPass E.bad (nul (lines input)) {} with
      | ub u => rfl
      | ok n =>
        simp only [Res.bind_ok]
        cases fill E pr (nul (lines input)) c.startBuild <;> rfl
    simp only [step]
    rw [e]
    cases hp : c.parse input pr with
    | ub u => exact .inl ⟨u, rfl, rfl⟩
    | ok c' =>
      refine .inr ⟨.done, c', c'.relabel st bf buf, rfl, rfl, st, bf, buf, rfl, ?_⟩
      obtain ⟨n, b, _, _, rfl⟩ := parse_ok_iff.1 hp
      exact hbf
  | «matches» url co dom =>
    have e := query_relabel c st bf buf (.inl hbf) url co dom
    cases h1 : c.query url co dom with
    | ub u =>
      rw [h1] at e
      cases h2 : (c.relabel st bf buf).query url co dom with
      | ub v => rw [h2] at e; cases e; exact .inl ⟨u, by simp [step, h1], by simp [step, h2]⟩
      | ok o => rw [h2] at e; cases e
    | ok o =>
      rw [h1] at e
      cases h2 : (c.relabel st bf buf).query url co dom with
      | ub v => rw [h2] at e; cases e
      | ok o' =>
        rw [h2] at e
        simp only [Res.map_ok, Res.ok.injEq, Outcome.answer] at e
        refine .inr ⟨_, _, _, by simp only [step, h1, Res.map_ok]; rfl, by simp only [step, h2, Res.map_ok, e]; rfl, ?_⟩
        exact ⟨o'.stats, o'.badFps, buf, rfl, (query_badFps h2).trans (hbf.trans (query_badFps h1).symm)⟩
  | find url co dom =>
    have e : (c.relabel st bf buf).findMatchingFilters url co dom = c.findMatchingFilters url co dom := rfl
    simp only [step]
    rw [e]
    cases c.findMatchingFilters url co dom with
    | ub u => exact .inl ⟨u, rfl, rfl⟩
    | ok r => exact .inr ⟨_, _, _, rfl, rfl, st, bf, buf, rfl, hbf⟩
  | addTag t =>
    refine .inr ⟨_, _, _, rfl, rfl, st, bf, buf, ?_, ?_⟩
    · unfold Client.addTag
      have e : (c.relabel st bf buf).tagExists t = c.tagExists t := rfl
      rw [e]
      cases c.tagExists t <;> rfl
    · unfold Client.addTag
      cases c.tagExists t <;> exact hbf
  | removeTag t => exact .inr ⟨_, _, _, rfl, rfl, st, bf, buf, rfl, hbf⟩
  | tagExists t => exact .inr ⟨_, _, _, rfl, rfl, st, bf, buf, rfl, hbf⟩
  | clear => exact .inr ⟨_, _, _, rfl, rfl, {}, none, buf, rfl, rfl⟩
  | enableBadFingerprintDetection =>
    refine .inr ⟨_, _, _, rfl, rfl, ?_⟩
    unfold Client.enableBadFingerprintDetection
    cases hc : c.badFps with
    | none =>
      cases bf with
      | none => exact ⟨st, _, buf, rfl, rfl⟩
      | some l => rw [hc] at hbf; cases hbf
    | some l' =>
      cases bf with
      | none => rw [hc] at hbf; cases hbf
      | some l => exact ⟨st, some l, buf, rfl, by rw [hc]; rfl⟩

theorem run_alike {c d : Client E} (h : Alike c d) (ops : List Op) : Prod.fst <$> run c ops = Prod.fst <$> run d ops := by
  induction ops generalizing c d with
  | nil => rfl
  | cons op ops ih =>
    unfold run
    rcases step_alike h op with ⟨u, h1, h2⟩ | ⟨a, c', d', h1, h2, h3⟩
    · rw [h1, h2]
    · rw [h1, h2]
      have := ih h3
      simp only [Res.bind_ok]
      cases h4 : run c' ops with
      | ub u =>
        rw [h4] at this
        cases h5 : run d' ops with
        | ub v => rw [h5] at this; cases this; rfl
        | ok y => rw [h5] at this; cases this
      | ok x =>
        rw [h4] at this
        cases h5 : run d' ops with
        | ub v => rw [h5] at this; cases this
        | ok y =>
          rw [h5] at this
          simp only [Res.map_ok, Res.ok.injEq] at this
          simp [this]

theorem queries_alike {c c' : Client E} {qs : List Op} {as : List Answer} (hq : ∀ q ∈ qs, q.IsQuery)
    (h : run c qs = .ok (as, c')) : Alike c c' := by
  induction qs generalizing c as with
  | nil => cases h; exact Alike.refl _
  | cons q qs ih =>
    obtain ⟨⟨a, c1⟩, h1, h⟩ := Res.bind_eq_ok.1 h
    obtain ⟨⟨as', c2⟩, h2, h⟩ := Res.bind_eq_ok.1 h
    cases h
    refine Alike.trans ?_ (ih (fun q h => hq q (by simp [h])) h2)
    have hq := hq q (by simp)
    cases q with
    | «matches» url co dom =>
      obtain ⟨o, ho, h1⟩ := Res.map_eq_ok.1 h1
      cases h1
      exact ⟨o.stats, o.badFps, c.deserializedBuffer, rfl, query_badFps ho⟩
    | find url co dom =>
      obtain ⟨r, _, h1⟩ := Res.map_eq_ok.1 h1
      cases h1
      exact Alike.refl c
    | _ => cases hq

/-- **C29**: after any sequence of queries, with or without bad fingerprint detection, every
sequence of operations (queries, loading lists, clearing, tags ...) gets the answers it would
have got without them. -/
theorem C29_queries_do_not_interfere {c c' : Client E} {qs : List Op} {as : List Answer} (hq : ∀ q ∈ qs, q.IsQuery)
    (h : run c qs = .ok (as, c')) (ops : List Op) : Prod.fst <$> run c' ops = Prod.fst <$> run c ops :=
  (run_alike (queries_alike hq h) ops).symm

/-- **C29**: queries change nothing but the statistics and the bad fingerprints found. -/
theorem C29_queries_keep_rules {c c' : Client E} {qs : List Op} {as : List Answer} (hq : ∀ q ∈ qs, q.IsQuery)
    (h : run c qs = .ok (as, c')) : c' = { c with stats := c'.stats, badFps := c'.badFps } := by
  induction qs generalizing c as with
  | nil => cases h; rfl
  | cons q qs ih =>
    obtain ⟨⟨a, c1⟩, h1, h⟩ := Res.bind_eq_ok.1 h
    obtain ⟨⟨as', c2⟩, h2, h⟩ := Res.bind_eq_ok.1 h
    cases h
    rw [ih (fun q h => hq q (by simp [h])) h2]
    have hq := hq q (by simp)
    cases q with
    | «matches» url co dom =>
      obtain ⟨o, ho, h1⟩ := Res.map_eq_ok.1 h1
      cases h1
      rfl
    | find url co dom =>
      obtain ⟨r, _, h1⟩ := Res.map_eq_ok.1 h1
      cases h1
      rfl
    | _ => cases hq

/-- **C29**: turning on the detection of bad fingerprints changes no answer either, in any
reachable state. -/
theorem C29_detection_does_not_interfere {c : Client E} {fs : List Filter} (hist : History E c fs) (url : Bytes) (co : Mask) (dom : Option Bytes) :
    Outcome.answer <$> c.enableBadFingerprintDetection.query url co dom = Outcome.answer <$> c.query url co dom := by
  have hold := history_holds hist
  obtain ⟨bf, e⟩ : ∃ bf, c.enableBadFingerprintDetection = c.relabel c.stats bf c.deserializedBuffer := by
    unfold Client.enableBadFingerprintDetection
    cases h : c.badFps with
    | none => exact ⟨_, rfl⟩
    | some l => exact ⟨c.badFps, rfl⟩
  rcases hold.ready with hr | ⟨rfl, _, hh, _⟩
  · rw [e]
    exact query_relabel c _ _ _ (.inr ⟨hr.bl false, hr.bl true⟩) url co dom
  · have hempty : ∀ id, c.lists id = [] := by
      intro id
      apply List.eq_nil_iff_forall_not_mem.2
      intro f hf
      have := (hold.mem.1 hf).1
      simp at this
    obtain ⟨o, h1, h2, h3, h4, _⟩ := query_empty hempty hh url co dom
    rw [e]
    obtain ⟨o', h1', h2', h3', h4', _⟩ := query_empty (c := c.relabel c.stats bf c.deserializedBuffer) hempty hh url co dom
    rw [h1, h1']
    simp [Outcome.answer, h2, h3, h4, h2', h3', h4']

/-! ### C31 -/

/-- the tags after an operation -/
def tagsAfter (tags : List Bytes) : Op → List Bytes
  | .addTag t => if tags.contains t then tags else tags ++ [t]
  | .removeTag t => tags.erase t
  | _ => tags

theorem step_tags {c c' : Client E} {op : Op} {a : Answer} (h : step c op = .ok (a, c')) : c'.tags = tagsAfter c.tags op := by
  cases op with
  | parse input pr =>
    obtain ⟨c1, hp, h⟩ := Res.map_eq_ok.1 h
    cases h
    exact parse_tags hp
  | «matches» url co dom => obtain ⟨o, _, h⟩ := Res.map_eq_ok.1 h; cases h; rfl
  | find url co dom => obtain ⟨o, _, h⟩ := Res.map_eq_ok.1 h; cases h; rfl
  | addTag t =>
    cases h
    simp only [Client.addTag, tagsAfter]
    by_cases h : c.tags.contains t = true
    · rw [if_pos h, if_pos (show c.tagExists t = true from h)]
    · rw [if_neg h, if_neg (show ¬ c.tagExists t = true from h)]
  | removeTag t => cases h; rfl
  | tagExists t => cases h; rfl
  | clear => cases h; rfl
  | enableBadFingerprintDetection =>
    cases h
    unfold Client.enableBadFingerprintDetection
    cases c.badFps <;> rfl

/-- the tags after a sequence of operations on any client -/
theorem run_tags {c c' : Client E} {ops : List Op} {as : List Answer} (hn : c.tags.Nodup) (h : run c ops = .ok (as, c')) (t : Bytes) :
    c'.tags.Nodup ∧ (t ∈ c'.tags ↔ (ops.filter (Op.isTag t)).getLast? = some (.addTag t) ∨
      (ops.filter (Op.isTag t) = [] ∧ t ∈ c.tags)) := by
  induction ops generalizing c as with
  | nil => cases h; simp [hn]
  | cons op ops ih =>
    obtain ⟨⟨a, c1⟩, h1, h⟩ := Res.bind_eq_ok.1 h
    obtain ⟨⟨as', c2⟩, h2, h⟩ := Res.bind_eq_ok.1 h
    cases h
    have ht := step_tags h1
    have hn1 : c1.tags.Nodup := by
      rw [ht]
      cases op with
      | addTag u =>
        simp only [tagsAfter]
        split
        · exact hn
        · rename_i hu
          rw [List.nodup_append]
          refine ⟨hn, by simp, ?_⟩
          intro a ha b hb e
          simp only [List.mem_singleton] at hb
          subst hb; subst e
          exact hu (by simpa using ha)
      | removeTag u => exact hn.erase u
      | _ => exact hn
    obtain ⟨h3, h4⟩ := ih hn1 h2
    refine ⟨h3, ?_⟩
    rw [h4, ht]
    by_cases hop : Op.isTag t op = true
    · rw [List.filter_cons_of_pos hop]
      simp only [List.getLast?_cons, List.cons_ne_nil, false_and, or_false, Option.some.injEq]
      cases hl : (ops.filter (Op.isTag t)).getLast? with
      | some x =>
        have : ops.filter (Op.isTag t) ≠ [] := by
          intro h; rw [h] at hl; cases hl
        simp [this]
      | none =>
        have : ops.filter (Op.isTag t) = [] := by simpa using hl
        simp only [this, reduceCtorEq, true_and, false_or, Option.getD_none]
        simp only [Op.isTag, Bool.or_eq_true, beq_iff_eq] at hop
        rcases hop with rfl | rfl
        · simp only [iff_true, tagsAfter]
          split
          · rename_i hu; simpa using hu
          · simp
        · simp [tagsAfter, hn.mem_erase_iff]
    · rw [List.filter_cons_of_neg hop]
      have : t ∈ tagsAfter c.tags op ↔ t ∈ c.tags := by
        simp only [Op.isTag, Bool.or_eq_true, beq_iff_eq, not_or] at hop
        cases op with
        | addTag u =>
          have : t ≠ u := fun e => hop.1 (by rw [e])
          simp only [tagsAfter]
          split <;> simp [this]
        | removeTag u =>
          have : t ≠ u := fun e => hop.2 (by rw [e])
          simp [tagsAfter, List.mem_erase_of_ne this]
        | _ => rfl
      rw [this]

/-- **C31**: after any sequence of operations on a new client, a tag is enabled exactly if the
last of the calls of `addTag` and `removeTag` with this tag is a call of `addTag`. -/
theorem C31_tags {c : Client E} {ops : List Op} {as : List Answer} (h : run (Client.fresh E) ops = .ok (as, c)) (t : Bytes) :
    c.tagExists t = true ↔ (ops.filter (Op.isTag t)).getLast? = some (.addTag t) := by
  have := (run_tags (c := Client.fresh E) (by simp [Client.fresh]) h t).2
  simpa [Client.tagExists, Client.fresh] using this

/-! ### C32 -/

/-- **C32**: a new client and a client on which `clear` has been called answer "no" to every
query, and report no filter. -/
theorem C32_empty_blocks_nothing (c d : Client E) (hd : d = Client.fresh E ∨ d = c.clear) (url : Bytes) (co : Mask) (dom : Option Bytes) :
    (∃ o, d.query url co dom = .ok o ∧ o.answer = .verdict false none none) ∧
    d.findMatchingFilters url co dom = .ok ⟨false, none, none⟩ := by
  have hl : ∀ id, d.lists id = [] := by rcases hd with rfl | rfl <;> intro id <;> rfl
  have hs : ∀ s, d.hs s = none := by rcases hd with rfl | rfl <;> intro s <;> cases s <;> rfl
  obtain ⟨o, h1, h2, h3, h4, _⟩ := query_empty hl hs url co dom
  exact ⟨⟨o, h1, by simp [Outcome.answer, h2, h3, h4]⟩, find_empty hl hs url co dom⟩

/-- The operations that neither load rules nor undo the enabling of bad fingerprint detection. -/
def Op.loads : Op → Bool
  | .parse .. => true
  | _ => false

/-- **C32**: it stays like that until a list is loaded: in a history of operations without
loading a list, all queries are answered with "no". -/
theorem C32_until_loading (c d : Client E) (hd : d = Client.fresh E ∨ d = c.clear) (ops : List Op)
    (hops : ∀ op ∈ ops, Op.loads op = false) :
    ∃ as d', run d ops = .ok (as, d') ∧ ∀ a ∈ as, ∀ b f e, a = .verdict b f e → b = false ∧ f = none ∧ e = none := by
  have hl : ∀ id, d.lists id = [] := by rcases hd with rfl | rfl <;> intro id <;> rfl
  have hs : ∀ s, d.hs s = none := by rcases hd with rfl | rfl <;> intro s <;> cases s <;> rfl
  clear hd
  induction ops generalizing d with
  | nil => exact ⟨[], d, rfl, by simp⟩
  | cons op ops ih =>
    have hop := hops op (by simp)
    have hops' : ∀ op ∈ ops, Op.loads op = false := fun op h => hops op (by simp [h])
    suffices ∃ a d1, step d op = .ok (a, d1) ∧ (∀ b f e, a = .verdict b f e → b = false ∧ f = none ∧ e = none) ∧
        (∀ id, d1.lists id = []) ∧ ∀ s, d1.hs s = none by
      obtain ⟨a, d1, h1, h2, h3, h4⟩ := this
      obtain ⟨as, d', h5, h6⟩ := ih d1 hops' h3 h4
      refine ⟨a :: as, d', by simp [run, h1, h5], ?_⟩
      intro x hx
      rcases List.mem_cons.1 hx with rfl | hx
      · exact h2
      · exact h6 x hx
    cases op with
    | parse input pr => cases hop
    | «matches» url co dom =>
      obtain ⟨o, h1, h2, h3, h4, _⟩ := query_empty hl hs url co dom
      refine ⟨.verdict o.block o.filter o.exception, { d with stats := o.stats, badFps := o.badFps }, by simp only [step, h1, Res.map_ok], ?_, hl, hs⟩
      intro b f e h
      cases h
      exact ⟨h2, h3, h4⟩
    | find url co dom =>
      refine ⟨.verdict false none none, d, by simp only [step, find_empty hl hs url co dom, Res.map_ok], ?_, hl, hs⟩
      intro b f e h
      cases h
      exact ⟨rfl, rfl, rfl⟩
    | addTag t =>
      refine ⟨_, _, rfl, by simp, ?_, ?_⟩ <;> unfold Client.addTag <;> cases d.tagExists t <;> assumption
    | removeTag t => exact ⟨_, _, rfl, by simp, hl, hs⟩
    | tagExists t => exact ⟨_, _, rfl, by simp, hl, hs⟩
    | clear => exact ⟨_, _, rfl, by simp, fun _ => rfl, fun s => by cases s <;> rfl⟩
    | enableBadFingerprintDetection =>
      refine ⟨_, _, rfl, by simp, ?_, ?_⟩ <;> unfold Client.enableBadFingerprintDetection <;> cases d.badFps <;> assumption

/-! ### C33 -/

/-- The client with another buffer to free in the end. -/
def Client.withBuffer (c : Client E) (buf : Option Bytes) : Client E := { c with deserializedBuffer := buf }

theorem step_withBuffer (c : Client E) (buf : Option Bytes) (op : Op) :
    step (c.withBuffer buf) op = (fun (a, d) => (a, d.withBuffer buf)) <$> step c op := by
  cases op with
  | parse input pr =>
    simp only [step]
    have e : (c.withBuffer buf).parse input pr = (fun c' => c'.withBuffer buf) <$> c.parse input pr := by
      rw [parse_lines, parse_lines]
      have e : (c.withBuffer buf).startBuild = c.startBuild := rfl
      rw [e]
      cases countPass E.bad (nul (lines input)) {} with
      | ub u => rfl
      | ok n =>
        simp only [Res.bind_ok]
        cases fill E pr (nul (lines input)) c.startBuild <;> rfl
    rw [e]
    cases c.parse input pr <;> rfl
  | «matches» url co dom =>
    simp only [step]
    have e : (c.withBuffer buf).query url co dom = c.query url co dom := rfl
    rw [e]
    cases c.query url co dom <;> rfl
  | find url co dom =>
    simp only [step]
    have e : (c.withBuffer buf).findMatchingFilters url co dom = c.findMatchingFilters url co dom := rfl
    rw [e]
    cases c.findMatchingFilters url co dom <;> rfl
  | addTag t =>
    simp only [step, Client.addTag]
    have e : (c.withBuffer buf).tagExists t = c.tagExists t := rfl
    rw [e]
    cases c.tagExists t <;> rfl
  | removeTag t => rfl
  | tagExists t => rfl
  | clear => rfl
  | enableBadFingerprintDetection =>
    simp only [step]
    have e : (c.withBuffer buf).enableBadFingerprintDetection = c.enableBadFingerprintDetection.withBuffer buf := by
      cases c with
      | mk lists _ _ _ _ _ _ _ badFps _ _ _ => cases badFps <;> rfl
    rw [e]
    rfl

theorem run_withBuffer (c : Client E) (buf : Option Bytes) (ops : List Op) :
    run (c.withBuffer buf) ops = (fun (as, d) => (as, d.withBuffer buf)) <$> run c ops := by
  induction ops generalizing c with
  | nil => rfl
  | cons op ops ih =>
    simp only [run, step_withBuffer]
    cases step c op with
    | ub u => rfl
    | ok x =>
      obtain ⟨a, c1⟩ := x
      simp only [Res.map_ok, Res.bind_ok, ih]
      cases run c1 ops <;> rfl

/-- a new client on which `addTag` is called with the given tags -/
def Client.newWithTags (E : Env) (tags : List Bytes) : Client E := tags.foldl Client.addTag (Client.fresh E)

theorem foldl_addTag (tags : List Bytes) (c : Client E) (h : (c.tags ++ tags).Nodup) :
    tags.foldl Client.addTag c = { c with tags := c.tags ++ tags } := by
  induction tags generalizing c with
  | nil => simp
  | cons t tags ih =>
    have hnot : t ∉ c.tags := by
      intro h1
      rw [List.nodup_append] at h
      exact h.2.2 t h1 t (by simp) rfl
    have e : c.addTag t = { c with tags := c.tags ++ [t] } := by
      unfold Client.addTag
      rw [if_neg (by simpa [Client.tagExists] using hnot)]
    rw [List.foldl_cons, e, ih _ (by simpa using h)]
    simp

/-- **C33**: after any history ending with `clear`, every sequence of operations has the same
answers, and leads to the same rules, indexes, tags and statistics, as on a new client on
which the tags enabled at that time have been enabled. -/
theorem C33_clear_forgets {c : Client E} {ops : List Op} {as : List Answer} (h : run (Client.fresh E) ops = .ok (as, c)) (ops' : List Op) :
    (∀ t, t ∈ c.tags ↔ c.tagExists t = true) ∧
    run c.clear ops' = (fun (as, d) => (as, { d with deserializedBuffer := c.deserializedBuffer })) <$> run (Client.newWithTags E c.tags) ops' := by
  refine ⟨fun t => by simp [Client.tagExists], ?_⟩
  have hn := (run_tags (c := Client.fresh E) (by simp [Client.fresh]) h []).1
  have e : c.clear = (Client.newWithTags E c.tags).withBuffer c.deserializedBuffer := by
    rw [Client.newWithTags, foldl_addTag _ _ (by simpa [Client.fresh] using hn)]
    rfl
  rw [e, run_withBuffer]
  rfl

/-! ### a concrete history -/

/-- A history in which a rule blocks, is switched off by its tag, and is forgotten; the list
is loaded after a query, and all answers are as expected. -/
example : (Prod.fst <$> run (Client.fresh toyEnv) [.addTag bs%"x", .matches bs%"http://a.com/ads" 0 none,
      .parse bs%"ads$tag=x" false, .matches bs%"http://a.com/ads" 0 none, .removeTag bs%"x", .tagExists bs%"x",
      .matches bs%"http://a.com/ads" 0 none, .addTag bs%"x", .addTag bs%"x", .clear, .tagExists bs%"x",
      .matches bs%"http://a.com/ads" 0 none]) =
    .ok [.done, .verdict false none none, .done,
      .verdict true (some { data := some (cstr bs%"ads"), tag := bs%"x" }) none, .done, .bool false,
      .verdict false none none, .done, .done, .done, .bool true, .verdict false none none] := by decide +kernel

end
end AdBlock
