import Verif.Model.NodeApi
import Verif.Props.Stats
/-
C55: the statistics as JavaScript sees them.
-/
namespace AdBlock
open Spec

/-! ### specification -/

/-- A call of `matches`. -/
def Spec.matchesCall : Op × Answer → Bool
  | (.matches .., _) => true
  | _ => false

/-! ### proofs -/

section
variable {E : Env}

/-- a sum of counters of which each query raises at most one -/
def Stats.counted (s : Stats) : Nat :=
  s.numFalsePositives + s.numBloomFilterSaves + s.numExceptionFalsePositives + s.numExceptionHashSetSaves

theorem step_counted {c c' : Client E} {op : Op} {a : Answer} (h : step c op = .ok (a, c')) (hop : op ≠ .clear) :
    c'.stats.counted ≤ c.stats.counted + if matchesCall (op, a) then 1 else 0 := by
  by_cases hm : ∃ url ctx dom, op = .matches url ctx dom
  · obtain ⟨url, ctx, dom, rfl⟩ := hm
    simp only [step] at h
    obtain ⟨o, ho, h⟩ := Res.map_eq_ok.1 h
    cases h
    show o.stats.counted ≤ c.stats.counted + 1
    cases C55_query ho with
    | nothing _ h2 => rw [h2]; omega
    | saved _ _ _ h2 => rw [h2]; simp only [Stats.counted]; omega
    | falsePositive _ _ _ h2 => rw [h2]; simp only [Stats.counted]; omega
    | exceptionSaved _ _ _ h2 => rw [h2]; simp only [Stats.counted]; omega
    | exceptionFalsePositive _ _ _ h2 => rw [h2]; simp only [Stats.counted]; omega
    | hostException _ _ h2 => rw [h2]; simp only [Stats.counted]; omega
  · rw [(C55_monotone h).2.2 (fun url ctx dom e => hm ⟨url, ctx, dom, e⟩) hop]
    omega

theorem run_counted {c c' : Client E} {ops : List Op} {as : List Answer} (h : run c ops = .ok (as, c')) :
    c'.stats.counted ≤ (if .clear ∈ ops then 0 else c.stats.counted) + (sinceClear (ops.zip as)).countP matchesCall := by
  have len : ∀ (ops : List Op) (c c' : Client E) (as : List Answer), run c ops = .ok (as, c') → as.length = ops.length := by
    intro ops
    induction ops with
    | nil => intro c c' as h; cases h; rfl
    | cons op ops ih =>
      intro c c' as h
      obtain ⟨a, as', c1, rfl, hs, hr⟩ := run_cons_ok h
      simp [ih _ _ _ hr]
  induction ops generalizing c as with
  | nil => cases h; simp [sinceClear]
  | cons op ops ih =>
    obtain ⟨a, as', c1, rfl, hs, hr⟩ := run_cons_ok h
    have := ih hr
    rw [List.zip_cons_cons]
    by_cases hc : Op.clear ∈ ops
    · have hy : ∃ y ∈ ops.zip as', y.1 = .clear := by
        obtain ⟨i, hi, e⟩ := List.getElem_of_mem hc
        have hl := len _ _ _ _ hr
        refine ⟨(ops.zip as')[i]'(by rw [List.length_zip]; omega), List.getElem_mem _, ?_⟩
        rw [List.getElem_zip]
        exact e
      rw [if_pos hc] at this
      rw [if_pos (by simp [hc])]
      unfold sinceClear
      rwa [if_pos hy]
    · have hn : ¬ ∃ y ∈ ops.zip as', y.1 = .clear := by
        rintro ⟨y, hy, e⟩
        exact hc (e ▸ (List.of_mem_zip hy).1)
      rw [if_neg hc, sinceClear_none (fun y hy e => hn ⟨y, hy, e⟩)] at this
      unfold sinceClear
      rw [if_neg hn]
      by_cases ho : op = .clear
      · subst ho
        rw [if_pos (by simp), if_pos rfl]
        cases hs
        exact this
      · have h1 := step_counted hs ho
        rw [if_neg (by simp only [List.mem_cons, not_or]; exact ⟨fun e => ho e.symm, hc⟩), if_neg ho, List.countP_cons]
        omega

theorem run_saves {c c' : Client E} {ops : List Op} {as : List Answer} (h : run c ops = .ok (as, c'))
    (hc : c.stats.numHashSetSaves = c.stats.numBloomFilterSaves ∧ c.stats.numExceptionBloomFilterSaves ≤ c.stats.numExceptionHashSetSaves) :
    c'.stats.numHashSetSaves = c'.stats.numBloomFilterSaves ∧ c'.stats.numExceptionBloomFilterSaves ≤ c'.stats.numExceptionHashSetSaves := by
  induction ops generalizing c as with
  | nil => cases h; exact hc
  | cons op ops ih =>
    obtain ⟨a, as', c1, rfl, hs, hr⟩ := run_cons_ok h
    refine ih hr ?_
    by_cases hm : ∃ url ctx dom, op = .matches url ctx dom
    · obtain ⟨url, ctx, dom, rfl⟩ := hm
      simp only [step] at hs
      obtain ⟨o, ho, h⟩ := Res.map_eq_ok.1 hs
      cases h
      show o.stats.numHashSetSaves = o.stats.numBloomFilterSaves ∧ o.stats.numExceptionBloomFilterSaves ≤ o.stats.numExceptionHashSetSaves
      cases C55_query ho with
      | nothing _ h2 => rw [h2]; exact hc
      | saved _ _ _ h2 => rw [h2]; simp only; omega
      | falsePositive _ _ _ h2 => rw [h2]; simp only; omega
      | exceptionSaved _ _ _ h2 => rw [h2]; simp only; omega
      | exceptionFalsePositive _ _ _ h2 => rw [h2]; simp only; omega
      | hostException _ _ h2 => rw [h2]; simp only; omega
    · by_cases ho : op = .clear
      · rw [(C55_monotone hs).1 ho]
        simp
      · rw [(C55_monotone hs).2.2 (fun url ctx dom e => hm ⟨url, ctx, dom, e⟩) ho]
        exact hc

/-- **C55**: what `getMatchingStats` tells JavaScript after any sequence of operations: six numbers.  Those of searches for
exceptions in vain add up to the number of calls of `matches` since the last `clear` that were answered with "block"; those of
the hash set and of the bloom filter are the same; and no call is counted twice in any of the four ways in which it can be
decided. -/
theorem C55_told {c : Client E} {ops : List Op} {as : List Answer} (h : run (Client.fresh E) ops = .ok (as, c)) :
    ∃ falsePositives exceptionFalsePositives bloomSaves exceptionBloomSaves hashSetSaves exceptionHashSetSaves,
      c.getMatchingStats = [(bs%"numFalsePositives", falsePositives), (bs%"numExceptionFalsePositives", exceptionFalsePositives),
        (bs%"numBloomFilterSaves", bloomSaves), (bs%"numExceptionBloomFilterSaves", exceptionBloomSaves),
        (bs%"numHashSetSaves", hashSetSaves), (bs%"numExceptionHashSetSaves", exceptionHashSetSaves)] ∧
      exceptionBloomSaves + exceptionFalsePositives = (sinceClear (ops.zip as)).countP blockedCall ∧
      hashSetSaves = bloomSaves ∧ exceptionBloomSaves ≤ exceptionHashSetSaves ∧
      falsePositives + bloomSaves + exceptionFalsePositives + exceptionHashSetSaves ≤ (sinceClear (ops.zip as)).countP matchesCall := by
  refine ⟨_, _, _, _, _, _, rfl, C55_blocked_requests h, (run_saves h ⟨rfl, Nat.le_refl _⟩).1, (run_saves h ⟨rfl, Nat.le_refl _⟩).2, ?_⟩
  have := run_counted h
  rw [show (Client.fresh E).stats.counted = 0 from rfl] at this
  simpa [Stats.counted] using this

/-- four calls, all of them counted -/
example : (do
    let x ← run (Client.fresh toyEnv) collectingRun
    pure (x.2.getMatchingStats, (sinceClear (collectingRun.zip x.1)).countP matchesCall, (sinceClear (collectingRun.zip x.1)).countP blockedCall)) =
    .ok ([(bs%"numFalsePositives", 2), (bs%"numExceptionFalsePositives", 1), (bs%"numBloomFilterSaves", 1),
      (bs%"numExceptionBloomFilterSaves", 0), (bs%"numHashSetSaves", 1), (bs%"numExceptionHashSetSaves", 0)], 4, 1) := by decide +kernel

end

end AdBlock
