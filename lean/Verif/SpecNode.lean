import Verif.Model.NodeApi
import Verif.SpecWrap
import Verif.SpecRequest
/-
What the constants exported to Node and the numbers reported to it are measured by.
-/
namespace AdBlock.Spec
open AdBlock

/-- A JavaScript name for an option of rules: the same letters, without hyphens, and perhaps with capitals
inside (`objectSubrequest` for `object-subrequest`). -/
def JsNameOf (key name : Bytes) : Prop := key.map lower = name.filter (· ≠ ch%'-')

instance (key name : Bytes) : Decidable (JsNameOf key name) := inferInstanceAs (Decidable (_ = _))

/-- How many members of a list have the property. -/
noncomputable def howMany {A : Type} (P : A → Prop) (l : List A) : Nat :=
  open Classical in l.countP fun a => decide (P a)

/-- The line was a rule, and its options are supported. -/
def UsableRule (f : Filter) : Prop :=
  f.hasUnsupportedOptions = false ∧ f.filterType ≠ FTEmpty ∧ f.filterType ≠ FTComment

/-- A rule consisting of a host. -/
def UsableHostRule (s : Bool) (f : Filter) : Prop :=
  f.hasUnsupportedOptions = false ∧ Kind s f ∧ has f.filterType FTHostOnly = true

/-- the sum of all numbers reported -/
def total (s : ParsingStats) : Nat :=
  s.numFilters + s.numCosmeticFilters + s.numExceptionFilters + s.numNoFingerprintFilters +
  s.numNoFingerprintDomainOnlyFilters + s.numNoFingerprintAntiDomainOnlyFilters + s.numNoFingerprintExceptionFilters +
  s.numNoFingerprintDomainOnlyExceptionFilters + s.numNoFingerprintAntiDomainOnlyExceptionFilters +
  s.numHostAnchoredFilters + s.numHostAnchoredExceptionFilters

end AdBlock.Spec
