import Verif.SpecLaws
/-
Ways to write a rule which make no difference: the order of options and domains, repetitions of them, and
redundant wildcards; and rules which can be replaced by several others.
-/
namespace AdBlock.Spec
open AdBlock

/-- Two `domain=` lists with the same entries, in any order and any number of times. -/
def SameDomains (dl dl' : Bytes) : Prop := ∀ s, s ∈ splitOn ch%'|' dl' ↔ s ∈ splitOn ch%'|' dl

/-- The option has a value that may be listed only once (the last one counts). -/
def HasValue (o : Bytes) : Prop := bs%"domain=" <+: RuleText.unsigned o ∨ bs%"tag=" <+: RuleText.unsigned o

instance (o : Bytes) : Decidable (HasValue o) := inferInstanceAs (Decidable (_ ∨ _))

/-- The rules differ only in the order and repetition of their options, and of the domains in their `domain=` list. -/
structure SameUpToOrder (r r' : RuleText) : Prop where
  rest : { r' with options := r.options } = r
  options : ∀ o, ¬ HasValue o → (o ∈ r'.entries ↔ o ∈ r.entries)
  tag : r'.value bs%"tag=" = r.value bs%"tag="
  domains : (r.value bs%"domain=" = none ∧ r'.value bs%"domain=" = none) ∨
    ∃ dl dl', r.value bs%"domain=" = some dl ∧ r'.value bs%"domain=" = some dl' ∧ SameDomains dl dl'

/-- `t'` is the pattern `t` with further stars: at its beginning, at its end, or next to another star. -/
inductive ExtraStars (t : Bytes) : (t' : Bytes) → Prop
  | same : ExtraStars t t
  | front {t'} : ExtraStars t t' → ExtraStars t (ch%'*' :: t')
  | doubled {a c b} : ExtraStars t (a ++ ch%'*' :: c :: b) → c ≠ ch%'*' → ExtraStars t (a ++ ch%'*' :: ch%'*' :: c :: b)
  | back {t'} : ExtraStars t t' → t'.getLast? ≠ some ch%'*' → ExtraStars t (t' ++ bs%"*")

/-- The rules, which have no bars other than two before a host, differ only in redundant stars (behind the host). -/
structure SameUpToStars (r r' : RuleText) : Prop where
  rest : { r' with text := r.text } = r
  usual : r.odd = none
  bars : r.anchor ≠ .left ∧ r.rightBar = false
  /-- the stars are behind the host, if there is one, and neither rule consists of a host alone -/
  host : r.anchor = .host → r'.hostPart = r.hostPart ∧ ¬ r.HostOnly ∧ ¬ r'.HostOnly
  stars : ExtraStars r.text r'.text

/-- The rule has a star that is taken for a character of the address: it has a bar before or behind it, or the star is in a host. -/
def LiteralStar (r : RuleText) : Prop :=
  (ch%'*' ∈ r.text ∧ (r.anchor = .left ∨ r.rightBar = true)) ∨ (r.anchor = .host ∧ r.rightBar = false ∧ ch%'*' ∈ r.hostPart)

/-- The option is a resource type. -/
def IsType (o : Bytes) : Prop := ∃ x ∈ typeTable, fullName o = some x.1

/-- `parts` are the rule `r` for each of the types it lists. -/
structure SplitByType (r : RuleText) (parts : List RuleText) : Prop where
  same : ∀ p ∈ parts, { p with options := r.options } = r
  options : ∃ types others, types ≠ [] ∧ (∀ o ∈ types, IsType o) ∧ (∀ o ∈ others, ¬ IsType o) ∧ r.entries = types ++ others ∧
    parts.map RuleText.entries = types.map (· :: others)

/-- `parts` are the rule `r` for each of the domains it lists (it excludes none). -/
structure SplitByDomain (r : RuleText) (parts : List RuleText) : Prop where
  same : ∀ p ∈ parts, { p with options := r.options } = r
  options : ∃ dl others, negative dl = [] ∧ (∀ o ∈ others, ¬ bs%"domain=" <+: RuleText.unsigned o) ∧
    r.entries = (bs%"domain=" ++ dl) :: others ∧ parts.map RuleText.entries = (splitOn ch%'|' dl).map fun d => (bs%"domain=" ++ d) :: others

/-- The list `rs'` has, in the place of some rules of `rs` other than those that consist of a host, rules for each of their types or
domains. -/
inductive SplitUp : (rs rs' : List RuleText) → Prop
  | nil : SplitUp [] []
  | keep {r rs rs'} : SplitUp rs rs' → SplitUp (r :: rs) (r :: rs')
  | types {r parts rs rs'} : SplitByType r parts → ¬ r.HostOnly → SplitUp rs rs' → SplitUp (r :: rs) (parts ++ rs')
  | domains {r parts rs rs'} : SplitByDomain r parts → ¬ r.HostOnly → SplitUp rs rs' → SplitUp (r :: rs) (parts ++ rs')

/-- A known defect is to do with the rule `r`, which has the rules `after` behind it, and the request: it consists of a host for which
there is another such rule of the same kind behind it (C52), or it can be found by the domains it excludes only, and excludes the page
(which makes the program ignore others that can be found in this way only). -/
def Meddles (bad : List Bytes) (r : RuleText) (after : List RuleText) (q : Request) : Prop :=
  (r.HostOnly ∧ ∃ r' ∈ after, r'.HostOnly ∧ r'.exception = r.exception ∧ r'.hostPart = r.hostPart) ∨
  ((∀ o ∈ r.entries, ¬ RuleText.Unsupported o) ∧ ∃ dl, ByDomain bad r dl ∧ positive dl = [] ∧
    ∃ d, q.domain = some d ∧ ∃ s ∈ negative dl, SameSite s d ∧ (s = d ∨ ch%'.' ∈ s))

/-- the exception that reads like the rule -/
def asException (r : RuleText) : RuleText := { r with exception := true }

/-- The rule says nothing about pages. -/
def AnyPage (r : RuleText) : Prop := ¬ r.Says bs%"third-party" ∧ ¬ r.Denies bs%"third-party" ∧ r.value bs%"domain=" = none

/-- The rule says nothing about types (and nothing that is taken for a type, see C53). -/
def AnyType (r : RuleText) : Prop := r.types = [] ∧ r.notTypes = [] ∧ ¬ r.TakenForType

/-- Wherever the characters `s` are, so are those of `t`: they are the same, or `^` for a separator. -/
inductive MoreGeneral : (t s : Bytes) → Prop
  | nil : MoreGeneral [] []
  | same {c t s} : MoreGeneral t s → MoreGeneral (c :: t) (c :: s)
  | caret {c t s} : IsSep c → MoreGeneral t s → MoreGeneral (ch%'^' :: t) (c :: s)

/-- The text `t`, which is more than a single `^`, is part of the text `t'`. -/
def PartOf (t t' : Bytes) : Prop := t ≠ [] ∧ t ≠ bs%"^" ∧ ∃ a s b, t' = a ++ s ++ b ∧ ch%'*' ∉ s ∧ MoreGeneral t s

/-- The rule `r₀` covers the rule `r` of the same kind: its text is part of the one of `r`, it has no bars, or two before a host to which the
host of `r` belongs, and it has the same options or none. -/
structure Covering (r₀ r : RuleText) : Prop where
  kind : r₀.exception = r.exception
  text : PartOf r₀.text r.text
  bars : r₀.anchor ≠ .left ∧ r₀.rightBar = false
  host : r₀.anchor = .host → r.anchor = .host ∧ r.rightBar = false ∧ SameSite r₀.hostPart r.hostPart
  options : r₀.entries = r.entries ∨ (r₀.entries = [] ∧ ¬ r.Says bs%"document")

/-- No known defect is to do with the rule `r` of the list `rs`: if it consists of a host, this has a dot and no other rule of its kind for
it is before it; if it has domains, it can be indexed otherwise. -/
structure Reliable (bad : List Bytes) (rs : List RuleText) (r : RuleText) : Prop where
  host : r.HostOnly → ch%'.' ∈ r.hostPart ∧ ∃ before after, rs = before ++ r :: after ∧
    ∀ r' ∈ before, ¬ (r'.HostOnly ∧ r'.exception = r.exception ∧ r'.hostPart = r.hostPart)
  domains : r.value bs%"domain=" = none ∨ r.Indexable bad

/-- the request with its address in lower case -/
def Request.lowered (q : Request) : Request :=
  { q with scheme := q.scheme.map lower, host := q.host.map lower, rest := q.rest.map lower }

/-- the rule with its text in lower case -/
def lowerText (r : RuleText) : RuleText := { r with text := r.text.map lower }

/-- The rules `p` and `p'` are the rule `r`, which says nothing about the option `name` (and lists no types, if this is one), with this
option and with its opposite. -/
structure Halves (name : Bytes) (r p p' : RuleText) : Prop where
  same : { p with options := r.options } = r ∧ { p' with options := r.options } = r
  options : p.entries = name :: r.entries ∧ p'.entries = (ch%'~' :: name) :: r.entries
  silent : ¬ r.Says name ∧ ¬ r.Denies name
  types : name ≠ bs%"third-party" → r.types = [] ∧ ¬ r.TakenForType

/-- The list `rs'` has, in the place of some rules of `rs` other than those that consist of a host, their two halves. -/
inductive Halved (name : Bytes) : (rs rs' : List RuleText) → Prop
  | nil : Halved name [] []
  | keep {r rs rs'} : Halved name rs rs' → Halved name (r :: rs) (r :: rs')
  | halves {r p p' rs rs'} : Halves name r p p' → ¬ r.HostOnly → Halved name rs rs' → Halved name (r :: rs) (p :: p' :: rs')

/-- the request with a user name in its address -/
def Request.withUser (user : Bytes) (q : Request) : Request := { q with host := user ++ ch%'@' :: q.host }

/-- the request with a user name and a password in its address -/
def Request.withPassword (user password : Bytes) (q : Request) : Request :=
  { q with host := user, rest := ch%':' :: password ++ ch%'@' :: q.host ++ q.rest }

/-- The text of a rule cannot fit anything that begins in the scheme of an address (`http`, `https`, `ws` or `wss`): the first character in
it which is none of these letters is not `*`, nor is it `:` or `^`, unless it comes first. -/
def SchemeFree (t : Bytes) : Prop :=
  ∃ a c b, t = a ++ c :: b ∧ (∀ x ∈ a, lower x ∈ bs%"htpsw") ∧ lower c ∉ bs%"htpsw" ∧ c ≠ ch%'*' ∧ (a = [] ∨ (c ≠ ch%':' ∧ c ≠ ch%'^'))

/-- The rule consists of two bars, a host with a dot, and perhaps more. -/
def ForHost (r : RuleText) : Prop :=
  r.odd = none ∧ r.anchor = .host ∧ r.rightBar = false ∧ ch%'.' ∈ r.hostPart ∧ ch%'*' ∉ r.hostPart

/-- The rule consists of two bars and a host, perhaps with a `^` behind it. -/
def WholeHost (r : RuleText) : Prop := r.odd = none ∧ r.HostOnly ∧ r.hostPart ≠ [] ∧ ch%'*' ∉ r.hostPart

/-- The rules consist of the same host, and have the same options; there may be a `^` behind the host of one of them only. -/
structure SameHost (r r' : RuleText) : Prop where
  rest : { r' with text := r.text } = r
  whole : WholeHost r ∧ WholeHost r'
  host : r'.hostPart = r.hostPart

/-- The rule has no tag (or an empty one). -/
def Untagged (r : RuleText) : Prop := ∀ t, r.value bs%"tag=" = some t → t = []

/-- The requests are to the same host, for the same type, and from the same page; their schemes, ports and paths may differ. -/
structure SameApartFromAddress (q q' : Request) : Prop where
  host : q'.host = q.host
  type : q'.type = q.type
  page : q'.domain = q.domain

/-- The rules do not get in each other's way: those of a kind that consist of one of the hosts of the request are all the same (see C52), and none
that can be found by the domains it excludes only excludes the page (see C26). -/
structure Independent (bad : List Bytes) (rs : List RuleText) (q : Request) : Prop where
  hosts : OneRuleForHost rs q
  pages : ∀ r ∈ rs, (∀ o ∈ r.entries, ¬ RuleText.Unsupported o) → ∀ dl, ByDomain bad r dl → positive dl = [] →
    ∀ d, q.domain = some d → ∀ s ∈ negative dl, ¬ SameSite s d

/-- the rule, or what an exception would be without its `@@` -/
def asBlocking (r : RuleText) : RuleText := { r with exception := false }

/-- The blocking rules of a list, in their order. -/
def blockingOf (rs : List RuleText) : List RuleText := rs.filter (fun r => !r.exception)

/-- The exceptions of a list, in their order. -/
def exceptionsOf (rs : List RuleText) : List RuleText := rs.filter (fun r => r.exception)

/-- By what it says in its options, the rule is for requests other than this one: for other types, for other parties, for other pages, or for when a tag is
enabled that isn't. -/
inductive Elsewhere (r : RuleText) (tags : List Bytes) (q : Request) : Prop
  | types {t} : q.type = some t → r.types ≠ [] → t ∉ r.types → Elsewhere r tags q
  | notTypes {t} : q.type = some t → t ∈ r.notTypes → Elsewhere r tags q
  | document {t} : q.type = some t → t.1 = bs%"document" → t ∉ r.types → Elsewhere r tags q
  | unknown : q.type = none → r.types ≠ [] → Elsewhere r tags q
  | thirdParty {d} : q.domain = some d → r.Says bs%"third-party" → SameSite d q.host → Elsewhere r tags q
  | sameParty {d} : q.domain = some d → r.Denies bs%"third-party" → ¬ SameSite d q.host → Elsewhere r tags q
  | pages {d dl} : q.domain = some d → r.value bs%"domain=" = some dl → ¬ DomainAdmitted dl d → Elsewhere r tags q
  | tag {t} : r.value bs%"tag=" = some t → t ≠ [] → t ∉ tags → Elsewhere r tags q

end AdBlock.Spec
