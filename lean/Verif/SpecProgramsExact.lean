import Verif.SpecPrograms
import Verif.SpecCheckExact
/-
What main.cc, perf.cc and data files made of several lists are measured by, exactly: compare `GoesBy` and `ServesAs`.
-/
namespace AdBlock.Spec
open AdBlock

/-- The client judges every web request that can be compared with the rules by those that count. -/
def GoesExactlyBy {E : Env} (c : Client E) (rs : List RuleText) : Prop :=
  ∀ q : Request, q.Web → Comparable rs q → (q.domain = none → NoEmptyDomain E.bad rs) → E.fp.rolls q.url →
    ∃ o, c.query q.url q.context q.domain = .ok o ∧ (o.block = true ↔ BlockedExactly E.bad rs q)

/-- A client made from these data goes by the rules that count. -/
def ServesExactly (E : Env) (data : Bytes) (rs : List RuleText) : Prop :=
  ∃ d : Client E, makeClientFromData E data = .ok (some d) ∧ GoesExactlyBy d rs

end AdBlock.Spec
