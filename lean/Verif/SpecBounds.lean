import Verif.Spec
/-
Exactly which comparisons of a rule with an address read memory that does not belong to either (C47).
-/
namespace AdBlock.Spec
open AdBlock

/-- The part `p` of a pattern is compared with `u`, the end of an address, to which it fits until `u` ends; there it
has `^`, which stands for the end, and something else behind it. -/
def GoesPast (p u : Bytes) : Prop := ∃ a b, p = a ++ ch%'^' :: b ∧ b ≠ [] ∧ a.length = u.length ∧ PartAt a u

/-- As before, but there the part has another character.  Such a comparison ends the search. -/
def GivesUp (p u : Bytes) : Prop := ∃ a c b, p = a ++ c :: b ∧ c ≠ ch%'^' ∧ a.length = u.length ∧ PartAt a u

/-- The first place in `u` where the part `p` fits is `k`. -/
def FirstAt (p u : Bytes) (k : Nat) : Prop := k < u.length ∧ PartAt p (u.drop k) ∧ ∀ j, j < k → ¬ PartAt p (u.drop j)

/-- A part is looked for at all: it is not `^` alone, nor longer than what is left of the address. -/
def LookedFor (p u : Bytes) : Prop := p ≠ bs%"^" ∧ p.length ≤ u.length

/-- The search for `p` in `u`, from left to right, comes to a place where the comparison goes past the end. -/
def SearchGoesPast (p u : Bytes) : Prop :=
  LookedFor p u ∧ ∃ k, k < u.length ∧ GoesPast p (u.drop k) ∧ ∀ j, j < k → ¬ PartAt p (u.drop j) ∧ ¬ GivesUp p (u.drop j)

/-- The parts of a pattern are looked for one after the other, each behind the first place where the one before it
fits; one of these searches goes past the end of the address, or, if the text of the rule is not `terminated`, its
end has to be looked at: the last part is empty, and is reached. -/
def PartsGoPast (terminated : Bool) : (parts : List Bytes) → (u : Bytes) → Prop
  | [], _ => False
  | p :: ps, u =>
    if p = [] ∧ ps = [] then terminated = false
    else SearchGoesPast p u ∨ ∃ k, LookedFor p u ∧ FirstAt p u k ∧ PartsGoPast terminated ps (u.drop (k + p.length))

end AdBlock.Spec
