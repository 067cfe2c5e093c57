import Verif.SpecCheckExact
import Verif.Model.CheckRefused
import Verif.Props.Check
import Verif.Props.Refused
/-
C72 and C80: scripts/check.js with a data file that is damaged.
-/
namespace AdBlock
open Spec

/-- the two models of the client of check.js agree, unless the data file is refused -/
theorem checkClient_into (E : Env) (left : Leftover) (w : World) (a : CheckArgs) (h : ¬ RefusesData E w a) :
    checkClient E w a = certain (checkClientInto E left w a) := by
  unfold checkClient checkClientInto
  split
  · cases h1 : whenTruthy a.uuid with
    | some u => rfl
    | none =>
    cases h2 : whenTruthy a.dat with
    | some path =>
      dsimp only
      unfold makeClientFromDATFile makeClientFromDATFileInto makeClientFromData
      cases hr : w.readFile path with
      | none => rfl
      | some data =>
        simp only [Option.map_some, certain]
        rw [C80_agrees left]
        rcases hd : (Client.fresh E).deserializeInto left data with ⟨b, d⟩ | u
        · cases b
          · refine absurd ⟨path, data, whenTruthy_absent.1 h1, whenTruthy_given.1 h2, hr, ?_⟩ h
            rw [C80_agrees left, hd]; rfl
          · rfl
        · rfl
    | none =>
    cases h3 : whenTruthy a.http with
    | some u => rfl
    | none =>
    cases h4 : whenTruthy a.filter with
    | some u => rfl
    | none =>
    cases h5 : whenTruthy a.filterPath with
    | some u => rfl
    | none => rfl
  · rfl

/-- **C72**: what has been said about runs of check.js holds for all of them in which the data file, if one is named, is not refused … -/
theorem C72_into_agrees (E : Env) (left : Leftover) (w : World) (a : CheckArgs) (h : ¬ RefusesData E w a) :
    check E w a = some <$> checkInto E left w a := by
  unfold check checkInto
  rw [checkClient_into E left w a h]
  cases checkClientInto E left w a with
  | none => rfl
  | some r =>
    simp only [certain, Option.map_some]
    cases r with
    | ub u => rfl
    | ok c =>
      simp only [Res.map_ok, Res.bind_ok]
      split
      · rfl
      · cases c.checkQuestions w a with
        | ub u => rfl
        | ok x =>
          cases x with
          | none => rfl
          | some x =>
            obtain ⟨out, c'⟩ := x
            simp only [Res.bind_ok]
            cases whenTruthy a.output with
            | none => rfl
            | some path => cases c'.serialize true true <;> rfl

/-- … and a file that is refused is no error for the tool: it prints an answer. -/
theorem C72_refused_no_error (E : Env) (left : Leftover) (w : World) {a : CheckArgs} (hp : Purposeful a) (hr : RefusesData E w a)
    (hl : ∀ path, a.list = some path → ∃ text, w.readFile path = some text) {r : CheckRun} (h : checkInto E left w a = .ok r) : r.output ≠ .error := by
  obtain ⟨path, data, h1, h2, h3, -⟩ := hr
  have hc : checkClientInto E left w a = some (Prod.snd <$> (Client.fresh E).deserializeInto left data) := by
    unfold checkClientInto
    rw [if_pos ((purposeful_iff a).2 hp), whenTruthy_absent.2 h1, whenTruthy_given.2 h2]
    simp only [makeClientFromDATFileInto, h3, Option.map_some]
  unfold checkInto at h
  rw [hc] at h
  obtain ⟨c, -, h⟩ := Res.bind_eq_ok.1 h
  split at h
  · cases h; intro h; cases h
  · rename_i hst
    obtain ⟨x, hx, h⟩ := Res.bind_eq_ok.1 h
    have hx' : x ≠ none ∧ ∀ y, x = some y → y.1 ≠ .error := by
      unfold Client.checkQuestions at hx
      dsimp only at hx
      cases hloc : whenTruthy a.location with
      | some url =>
        rw [hloc] at hx
        dsimp only at hx
        split at hx
        · obtain ⟨f, -, hx⟩ := Res.bind_eq_ok.1 hx
          cases hx; exact ⟨by simp, fun y e => by cases e; intro h; cases h⟩
        · obtain ⟨f, -, hx⟩ := Res.bind_eq_ok.1 hx
          cases hx; exact ⟨by simp, fun y e => by cases e; intro h; cases h⟩
      | none =>
        rw [hloc] at hx
        dsimp only at hx
        rcases hp with hs | ⟨-, ⟨l, hl'⟩ | ⟨f, hf⟩⟩
        · exact absurd hs hst
        · rw [whenTruthy_given.2 hl'] at hloc; cases hloc
        · obtain ⟨text, ht⟩ := hl f hf.1
          rw [hf.1] at hx
          simp only [Option.bind_some, ht] at hx
          split at hx
          · obtain ⟨f, -, hx⟩ := Res.bind_eq_ok.1 hx
            cases hx; exact ⟨by simp, fun y e => by cases e; intro h; cases h⟩
          · obtain ⟨f, -, hx⟩ := Res.bind_eq_ok.1 hx
            cases hx; exact ⟨by simp, fun y e => by cases e; intro h; cases h⟩
    cases x with
    | none => exact absurd rfl hx'.1
    | some y =>
      obtain ⟨out, c'⟩ := y
      have := hx'.2 _ rfl
      dsimp only at h
      split at h
      · cases h; exact this
      · obtain ⟨s, -, h⟩ := Res.bind_eq_ok.1 h
        cases h; exact this

/-- `check.js --dat saved.dat --host b.com --location http://a.com/` -/
def exDamagedArgs : CheckArgs := { dat := some bs%"saved.dat", host := some bs%"b.com", location := some bs%"http://a.com/" }

/-- **C72** is violated if the data file is damaged: with one byte changed, the tool reports no error but says that a request is to be blocked
which it says is not to be blocked if the file is intact. -/
theorem C72_damaged_counterexample (E : Env) (doms : HSet Bytes) (fetch : Bytes → Option Bytes) :
    (∃ st, checkInto E ⟨noEntries, doms⟩ ⟨fetch, fun _ => some (refusedData bs%"6" bs%"6")⟩ exDamagedArgs = .ok { output := .verdict false st }) ∧
    RefusesData E ⟨fetch, fun _ => some (refusedData bs%"6" bs%"f")⟩ exDamagedArgs ∧
    ∃ st, checkInto E ⟨noEntries, doms⟩ ⟨fetch, fun _ => some (refusedData bs%"6" bs%"f")⟩ exDamagedArgs = .ok { output := .verdict true st } := by
  have run : ∀ {data : Bytes} {b : Bool} {d : Client E} {o : Outcome E}, (Client.fresh E).deserializeInto ⟨noEntries, doms⟩ data = .ok (b, d) →
      d.query bs%"http://a.com/" 0 (some bs%"b.com") = .ok o →
      checkInto E ⟨noEntries, doms⟩ ⟨fetch, fun _ => some data⟩ exDamagedArgs = .ok { output := .verdict o.block o.stats } := by
    intro data b d o h1 h2
    have hc : checkClientInto E ⟨noEntries, doms⟩ ⟨fetch, fun _ => some data⟩ exDamagedArgs = some (.ok d) := by
      show (some data).map (fun data => Prod.snd <$> (Client.fresh E).deserializeInto ⟨noEntries, doms⟩ data) = _
      rw [Option.map_some, h1]; rfl
    have hq : d.checkQuestions ⟨fetch, fun _ => some data⟩ exDamagedArgs =
        .ok (some (.verdict o.block o.stats, { d with stats := o.stats, badFps := o.badFps })) := by
      show (do let (b, c) ← d.nodeMatches bs%"http://a.com/" (int32Argument (checkFilterOption none)) (some bs%"b.com")
               pure (some (CheckOutput.verdict b c.stats, c))) = _
      rw [show int32Argument (checkFilterOption none) = 0 by decide +kernel, nodeMatches_of_query h2]
      rfl
    unfold checkInto
    rw [hc]
    simp only [Res.bind_ok, hq]
    rfl
  obtain ⟨d, o, -, h1, h2, h3, -⟩ := C80_undamaged ⟨noEntries, doms⟩ (Client.fresh E) (dom := some bs%"b.com") (.inr rfl)
  obtain ⟨d', o', h4, h5, h6⟩ := C80_matches_counterexample doms (Client.fresh E) (some bs%"b.com")
  refine ⟨⟨o.stats, ?_⟩, ⟨bs%"saved.dat", _, .inl rfl, ⟨rfl, by decide⟩, rfl, ?_⟩, ⟨o'.stats, ?_⟩⟩
  · rw [run h1 h2, h3]
  · rw [C80_agrees ⟨noEntries, doms⟩, h4]; rfl
  · rw [run h4 h5, h6]

/-- the runs of the example are of the kind considered -/
example : Purposeful exDamagedArgs := .inr ⟨⟨_, rfl, by decide⟩, .inl ⟨_, rfl, by decide⟩⟩

end AdBlock
