import Verif.SpecExact
import Verif.Model.Client
/-
Laws about lists of rules, stated about their text and the answers of new clients which load them.
-/
namespace AdBlock.Spec
open AdBlock

/-- A new client which loads the list `input` and enables the tags answers the request with `block`. -/
def Answers (E : Env) (input : Bytes) (preserve : Bool) (tags : List Bytes) (q : Request) (block : Bool) : Prop :=
  ∃ c, (Client.fresh E).parse input preserve = .ok c ∧
    ∃ o, (tags.foldl Client.addTag c).query q.url q.context q.domain = .ok o ∧ o.block = block

/-- The same for `findMatchingFilters`. -/
def Finds (E : Env) (input : Bytes) (preserve : Bool) (tags : List Bytes) (q : Request) (block : Bool) : Prop :=
  ∃ c, (Client.fresh E).parse input preserve = .ok c ∧
    ∃ r, (tags.foldl Client.addTag c).findMatchingFilters q.url q.context q.domain = .ok r ∧ r.block = block

/-- `input` is a list of the rules `rs` which can be loaded. -/
structure Lists (E : Env) (input : Bytes) (rs : List RuleText) : Prop where
  noNul : 0 ∉ input
  rules : ListOf (lines input) rs
  sound : SoundList E.bad rs

/-- A web request that can be compared with the rules `rs`. -/
structure Askable (E : Env) (rs : List RuleText) (q : Request) : Prop where
  web : q.Web
  safe : Comparable rs q
  empty : q.domain = none → NoEmptyDomain E.bad rs
  rolls : E.fp.rolls q.url

/-- The rules of a kind for one of the hosts of the request are all the same. -/
def OneRuleForHost (rs : List RuleText) (q : Request) : Prop :=
  ∀ r ∈ rs, ∀ r' ∈ rs, r.HostOnly → r'.HostOnly → r.exception = r'.exception → r.hostPart = r'.hostPart →
    SameSite r.hostPart q.host → r = r'

/-- Options which do not say for which requests a rule is: what to do about them, or nothing at all (`first-party`, see C13). -/
def Aside (o : Bytes) : Prop :=
  fullName (RuleText.unsigned o) ∈ [some bs%"important", some bs%"explicitcancel", some bs%"first-party"] ∨
  bs%"redirect=" <+: RuleText.unsigned o

instance (o : Bytes) : Decidable (Aside o) := inferInstanceAs (Decidable (_ ∨ _))

/-- A line with a rule about the contents of pages (element hiding, an exception to it, or HTML filtering): anything in which
none of these marks occurs, `##`, `#@` or `$$`, and what to select. -/
def AboutPages (line : Bytes) : Prop :=
  ∃ before mark selector, Begins line before (mark ++ selector) ∧ mark ∈ [bs%"##", bs%"#@", bs%"$$"] ∧ before.length < 2047

/-- The rules differ only in such options. -/
structure SameApart (r r' : RuleText) : Prop where
  rest : { r' with options := r.options } = r
  options : r'.entries.filter (fun o => decide (¬ Aside o)) = r.entries.filter (fun o => decide (¬ Aside o))

/-- The rules differ only in their tags. -/
structure SameApartFromTag (r r' : RuleText) : Prop where
  rest : { r' with options := r.options } = r
  options : r'.entries.filter (fun o => decide (¬ bs%"tag=" <+: RuleText.unsigned o)) =
    r.entries.filter (fun o => decide (¬ bs%"tag=" <+: RuleText.unsigned o))

end AdBlock.Spec
