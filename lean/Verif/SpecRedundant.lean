import Verif.SpecRuleLaws
/-
Domains in a `domain=` list which make no difference.
-/
namespace AdBlock.Spec
open AdBlock

/-- The list `dl'` has the entries of `dl`, in any order, and perhaps further ones that make no difference: subdomains of a listed
domain with no excluded domain in between; subdomains of an excluded domain with no listed domain in between; and excluded domains
that belong to none of those listed, if there are any.  (A domain without a dot stands for itself only.) -/
structure MoreDomains (dl dl' : Bytes) : Prop where
  kept : ∀ s ∈ splitOn ch%'|' dl, s ∈ splitOn ch%'|' dl'
  listed : ∀ s ∈ positive dl', s ∈ positive dl ∨
    ∃ p ∈ positive dl, ch%'.' ∈ p ∧ SameSite p s ∧ ∀ n ∈ negative dl', SameSite n s → SameSite n p
  excluded : ∀ s ∈ negative dl', s ∈ negative dl ∨
    (∃ n ∈ negative dl, ch%'.' ∈ n ∧ SameSite n s ∧ ∀ p ∈ positive dl', SameSite p s → SameSite p n ∧ p ≠ n) ∨
    (positive dl ≠ [] ∧ ∀ p ∈ positive dl', ¬ SameSite p s)

/-- The rules differ only in the order and repetition of their options, and `r'` has more domains in its `domain=` list, which make
no difference. -/
structure SameUpToDomains (r r' : RuleText) : Prop where
  rest : { r' with options := r.options } = r
  options : ∀ o, ¬ HasValue o → (o ∈ r'.entries ↔ o ∈ r.entries)
  tag : r'.value bs%"tag=" = r.value bs%"tag="
  domains : (r.value bs%"domain=" = none ∧ r'.value bs%"domain=" = none) ∨
    ∃ dl dl', r.value bs%"domain=" = some dl ∧ r'.value bs%"domain=" = some dl' ∧ MoreDomains dl dl'

end AdBlock.Spec
