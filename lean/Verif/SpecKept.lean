import Verif.SpecRuleLaws
/-
Rules that are taken into account by `findMatchingFilters` for every request (for C115).
-/
namespace AdBlock.Spec

/-- The rule `r` of the list `rs` counts for every request: if it consists of a host, this has a dot and no other rule of its kind for it is before it. -/
def Kept (rs : List RuleText) (r : RuleText) : Prop :=
  r.HostOnly → ch%'.' ∈ r.hostPart ∧ ∃ before after, rs = before ++ r :: after ∧
    ∀ r' ∈ before, ¬ (r'.HostOnly ∧ r'.exception = r.exception ∧ r'.hostPart = r.hostPart)

end AdBlock.Spec
