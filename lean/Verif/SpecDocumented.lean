import Verif.SpecRuleLaws
/-
What the documentation of the rules (that of Adblock Plus, whose lists the library is for) says about their texts: `*` stands for any
characters, `^` for a separator or the end of the address, a bar for the beginning or the end of the address, and two bars for the
beginning of the host or of one of the names it consists of.
-/
namespace AdBlock.Spec
open AdBlock

/-- Letters, digits, the characters `_ - . %` and everything beyond ASCII.  All other characters are separators. -/
def Ordinary (c : Byte) : Prop :=
  (ch%'a' ≤ c ∧ c ≤ ch%'z') ∨ (ch%'A' ≤ c ∧ c ≤ ch%'Z') ∨ (ch%'0' ≤ c ∧ c ≤ ch%'9') ∨ c ∈ bs%"_-.%" ∨ 128 ≤ c

instance (c : Byte) : Decidable (Ordinary c) := inferInstanceAs (Decidable (_ ∨ _))

/-- The pattern stands for the beginning of `u`, which is followed by `rest`. -/
inductive Stands : (pattern u rest : Bytes) → Prop
  | nil {u} : Stands [] u u
  | star {x p u rest} : Stands p u rest → Stands (ch%'*' :: p) (x ++ u) rest
  | separator {c p u rest} : ¬ Ordinary c → Stands p u rest → Stands (ch%'^' :: p) (c :: u) rest
  | last {p rest} : Stands p [] rest → Stands (ch%'^' :: p) [] rest
  | char {c p u rest} : c ≠ ch%'*' → c ≠ ch%'^' → Stands p u rest → Stands (c :: p) (c :: u) rest

/-- The rule is meant for the address of the request. -/
def RuleText.AddressMeant (r : RuleText) (q : Request) : Prop :=
  match r.anchor with
  | .none => ∃ a u rest, q.url = a ++ u ∧ Stands r.text u rest ∧ (r.rightBar = true → rest = [])
  | .left => ∃ rest, Stands r.text q.url rest ∧ (r.rightBar = true → rest = [])
  | .host => ∃ a b rest, q.host = a ++ b ∧ (a = [] ∨ ∃ x, a = x ++ bs%".") ∧ Stands r.text (b ++ q.rest) rest ∧
      (r.rightBar = true → rest = [])

/-- The rule is meant for the request: its address, type, page and tag. -/
def RuleText.Meant (r : RuleText) (tags : List Bytes) (q : Request) : Prop :=
  (∀ o ∈ r.entries, ¬ RuleText.Unsupported o) ∧ r.TypeAllowed q ∧ r.PageAllowed q ∧ r.TagEnabled tags ∧ r.AddressMeant q

/-- Rules of plain text, with or without bars, and those of the form `||host^`. -/
def RuleText.Simple (r : RuleText) : Prop :=
  r.odd = none ∧ ((r.anchor ≠ .host ∧ ch%'*' ∉ r.text ∧ ch%'^' ∉ r.text) ∨
    (r.anchor = .host ∧ r.rightBar = false ∧ ∃ h, h ≠ [] ∧ r.text = h ++ bs%"^" ∧ ∀ c ∈ h, Ordinary c))

/-- Texts with stars and `^`: there are characters between the stars, but not just a `^`, and two of them are not the last there. -/
def RegularText (t : Bytes) : Prop :=
  (∀ p ∈ splitOn ch%'*' t, p ≠ bs%"^" ∧ ¬ bs%"^^" <:+ p) ∧ ∀ p ∈ (splitOn ch%'*' t).tail.dropLast, p ≠ []

/-- Rules without bars, with stars and `^` in their texts. -/
def RuleText.Regular (r : RuleText) : Prop := r.odd = none ∧ r.anchor = .none ∧ r.rightBar = false ∧ RegularText r.text

/-- Rules with two bars of which the text is a host with a dot, a separator or `^`, and anything else. -/
def RuleText.HostFirst (r : RuleText) : Prop :=
  r.odd = none ∧ r.anchor = .host ∧ r.rightBar = false ∧
    ∃ h c more, ch%'.' ∈ h ∧ r.text = h ++ c :: more ∧ IsSep c ∧ ∀ x ∈ h, Ordinary x

/-- The host of the rule does not occur behind the host of the address. -/
def Request.Unquoted (q : Request) (r : RuleText) : Prop := ∀ a b, q.rest ≠ a ++ r.hostPart ++ b

/-- Rules with two bars of which the text is a host, a separator and anything else, without special characters. -/
def RuleText.HostAndMore (r : RuleText) : Prop :=
  r.odd = none ∧ r.anchor = .host ∧ r.rightBar = false ∧ ch%'*' ∉ r.text ∧ ch%'^' ∉ r.text ∧
    ∃ h c more, h ≠ [] ∧ r.text = h ++ c :: more ∧ IsSep c ∧ ∀ x ∈ h, Ordinary x

/-- The address is at least as long as the text of the rule, and, if this has a `^`, has no characters other than those that the library and the
documentation treat alike.  It does not end in what two parts of the text stand for, next to each other, if a `^` follows the second of them. -/
def Request.Regular (q : Request) (r : RuleText) : Prop :=
  r.text.length ≤ q.url.length ∧ (ch%'^' ∈ r.text → ∀ c ∈ q.url, Ordinary c ∨ IsSep c) ∧
    ∀ first second, [first, second ++ bs%"^"] <:+: splitOn ch%'*' r.text → first ≠ [] → ∀ v, v <:+ q.url → ¬ Stands (first ++ second) v []

end AdBlock.Spec
