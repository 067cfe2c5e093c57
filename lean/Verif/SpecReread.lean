import Verif.SpecSerialize
/-
What becomes of a rule that is written and read back, for rules which the format cannot represent as well.
-/
namespace AdBlock.Spec
open AdBlock

/-- A rule without tag whose list of domains begins like a tag. -/
def LooksTagged (f : Filter) : Prop := f.tag = [] ∧ bs%"~#" <+: f.domainList.getD []

instance (f : Filter) : Decidable (LooksTagged f) := inferInstanceAs (Decidable (_ ∧ _))

/-- What follows the first comma, or everything if there is none. -/
def afterComma (s : Bytes) : Bytes :=
  if ch%',' ∈ s then (s.dropWhile (· != ch%',')).drop 1 else s

/-- The tag of the rule that is read back: what follows `~#` up to the first comma. -/
def rereadTag (f : Filter) : Bytes :=
  if LooksTagged f then ((f.domainList.getD []).drop 2).takeWhile (· != ch%',') else f.tag

/-- The list of domains of the rule that is read back. -/
def rereadDomains (f : Filter) : Bytes :=
  if LooksTagged f then afterComma ((f.domainList.getD []).drop 2) else f.domainList.getD []

/-- The entry of a hash set that is read back: an empty list of domains is lost, and a list of
domains beginning with `~#` is taken for a tag. -/
def rereadEntry (f : Filter) : Filter :=
  { f with tag := rereadTag f, domainList := if rereadDomains f = [] then none else some (rereadDomains f) }

/-- The rule of an array that is read back: in addition, an empty text is lost. -/
def rereadRule (f : Filter) : Filter :=
  { rereadEntry f with data := f.data.bind fun d => if d.head? = some 0 then none else some d }

/-- The strings of a rule besides its text, as the parser leaves them: no NUL, and no comma in the tag. -/
structure CleanStrings (f : Filter) : Prop where
  tag : 0 ∉ f.tag ∧ ch%',' ∉ f.tag
  domains : ∀ dl, f.domainList = some dl → 0 ∉ dl
  host : ∀ h, f.host = some h → 0 ∉ h

/-- Rules of the arrays as the parser leaves them. -/
structure CleanRule (f : Filter) : Prop extends CleanStrings f where
  text : f.data = none ∨ ∃ pat, HasText f pat

/-- Rules of the hash sets as the parser leaves them. -/
structure CleanEntry (f : Filter) : Prop extends CleanStrings f where
  text : ∃ pat, HasBareText f pat ∧ pat.length < 2 ^ 31

/-- A hash set with every entry replaced. -/
def mapSet {T : Type} (g : T → T) (s : HSet T) : HSet T := { s with bucket := fun i => (s.bucket i).map g }

/-- A client with every rule replaced by what is read back of it. -/
def rereadClient {E : Env} (c : Client E) : Client E :=
  { c with
    lists := fun id => (c.lists id).map rereadRule
    hostSet := c.hostSet.map (mapSet rereadEntry)
    hostExceptionSet := c.hostExceptionSet.map (mapSet rereadEntry) }

end AdBlock.Spec
