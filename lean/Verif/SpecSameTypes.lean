import Verif.SpecRuleLaws
/-
Rules for the same types, in whichever way they say so.
-/
namespace AdBlock.Spec
open AdBlock

/-- The rule is for requests of this type: it is listed, or none is listed (which does not include documents), and it is not excluded. -/
def ForType (r : RuleText) (t : Bytes × Mask) : Prop :=
  (t ∈ r.types ∨ (r.types = [] ∧ t.1 ≠ bs%"document")) ∧ t ∉ r.notTypes

/-- The rules are for the same types, and do not differ otherwise, except in the order and repetition of their options.  (They have no
option that is taken for a type, see C53.) -/
structure SameUpToTypes (r r' : RuleText) : Prop where
  rest : { r' with options := r.options } = r
  types : ∀ t ∈ typeTable, ForType r' t ↔ ForType r t
  options : ∀ o, ¬ IsType (RuleText.unsigned o) → (o ∈ r'.entries ↔ o ∈ r.entries)
  tag : r'.value bs%"tag=" = r.value bs%"tag="
  domains : r'.value bs%"domain=" = r.value bs%"domain="
  usual : ¬ r.TakenForType

/-- Both rules list types or neither, and both exclude types or neither. -/
def AlikeInTypes (r r' : RuleText) : Prop := (r'.types = [] ↔ r.types = []) ∧ (r'.notTypes = [] ↔ r.notTypes = [])

end AdBlock.Spec
