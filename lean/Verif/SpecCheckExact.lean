import Verif.SpecCheck
import Verif.SpecFindExact
/-
What the tool scripts/check.js is measured by, exactly: compare `Blocked`.
-/
namespace AdBlock.Spec
open AdBlock

/-- A rule that counts applies to the request, and no exception that counts does. -/
def BlockedExactly (bad : List Bytes) (rs : List RuleText) (q : Request) : Prop :=
  (∃ r ∈ rs, r.exception = false ∧ Counted bad rs q r ∧ r.AppliesTo [] q) ∧ ¬ ∃ r ∈ rs, r.exception = true ∧ Counted bad rs q r ∧ r.AppliesTo [] q

/-- The arguments name a data file, and `deserialize` refuses it. -/
def RefusesData (E : Env) (w : World) (a : CheckArgs) : Prop :=
  ∃ path data, Absent a.uuid ∧ Given a.dat path ∧ w.readFile path = some data ∧ (Client.fresh E).deserialize data = .ok none

end AdBlock.Spec
