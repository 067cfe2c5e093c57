import Verif.SpecSession
/-
Exactly which rules of a list the program takes into account for a request, from the text of the
rules: C59 without the conditions that exclude the known defects.
-/
namespace AdBlock.Spec
open AdBlock

/-- A rule that consists of a host is taken into account if it is the first of its kind (rule or
exception) for this host, and if the host has a dot or is the host of the request. -/
def HostCounted (rs : List RuleText) (q : Request) (r : RuleText) : Prop :=
  r.HostOnly →
    (∃ before after, rs = before ++ r :: after ∧
      ∀ r' ∈ before, ¬ (r'.HostOnly ∧ r'.exception = r.exception ∧ r'.hostPart = r.hostPart)) ∧
    (r.hostPart = q.host ∨ ch%'.' ∈ r.hostPart)

/-- The rule has a `domain=` list `dl`, and neither consists of a host nor can be indexed. -/
def ByDomain (bad : List Bytes) (r : RuleText) (dl : Bytes) : Prop :=
  r.value bs%"domain=" = some dl ∧ ¬ r.HostOnly ∧ ¬ r.Indexable bad

/-- The rule is taken into account by `matches`. -/
structure Counted (bad : List Bytes) (rs : List RuleText) (q : Request) (r : RuleText) : Prop where
  host : HostCounted rs q r
  /-- a rule that cannot be indexed and lists domains, but excludes none, is only taken into account if
  the page is known -/
  page : ∀ dl, ByDomain bad r dl → negative dl = [] → q.domain ≠ none
  /-- a rule that cannot be indexed and only excludes domains is only taken into account if no such
  rule (of the same kind, and supported) excludes the page -/
  excluded : ∀ dl, ByDomain bad r dl → positive dl = [] →
    ∀ r' ∈ rs, r'.exception = r.exception → (∀ o ∈ r'.entries, ¬ RuleText.Unsupported o) →
    ∀ dl', ByDomain bad r' dl' → positive dl' = [] → ∀ d, q.domain = some d →
    ∀ s ∈ negative dl', ¬ (SameSite s d ∧ (s = d ∨ ch%'.' ∈ s))

/-- No rule of this kind excludes the empty domain (`domain=~`). -/
def NoEmptyDomain (bad : List Bytes) (rs : List RuleText) : Prop :=
  ∀ r ∈ rs, ∀ dl, ByDomain bad r dl → [] ∉ negative dl

namespace Book

/-- Some rule (exception, if `s`) that counts applies to the request. -/
def CountedRule (b : Book) (counts : RuleText → Prop) (s : Bool) (q : Request) : Prop :=
  ∃ r ∈ b.rules, r.exception = s ∧ counts r ∧ r.AppliesTo b.tags q

/-- What is reported stands for a rule that counts and applies. -/
def CountedReport (b : Book) (counts : RuleText → Prop) (s : Bool) (q : Request) (f : Filter) : Prop :=
  ∃ r ∈ b.rules, r.exception = s ∧ counts r ∧ r.AppliesTo b.tags q ∧ ∃ preserve, CopyOf f (r.filter preserve)

/-- The answer to a query if only some rules count: otherwise as `Verdict`. -/
structure ExactVerdict (b : Book) (counts : RuleText → Prop) (q : Request) (block : Bool) (filter exception : Option Filter) : Prop where
  blocked : block = true ↔ b.CountedRule counts false q ∧ ¬ b.CountedRule counts true q
  matched : filter ≠ none ↔ b.CountedRule counts false q
  excepted : exception ≠ none ↔ b.CountedRule counts false q ∧ b.CountedRule counts true q
  isRule : ∀ f, filter = some f → b.CountedReport counts false q f
  isException : ∀ e, exception = some e → b.CountedReport counts true q e

/-- The calls considered: lists that can be loaded, and web requests with which the rules loaded can
be compared safely. -/
def AllowsExact (E : Env) (b : Book) : Call → Prop
  | .load input _ rules => 0 ∉ input ∧ ListOf (lines input) rules ∧ SoundList E.bad (b.rules ++ rules)
  | .matches q => q.Web ∧ Comparable b.rules q ∧ (q.domain = none → NoEmptyDomain E.bad b.rules) ∧ E.fp.rolls q.url
  | .find q => q.Web ∧ Comparable b.rules q
  | _ => True

/-- The answer to be expected: `matches` goes by the rules that are `Counted`, `findMatchingFilters` by
those that are `HostCounted`. -/
def ExpectsExact (bad : List Bytes) (b : Book) : Call → Answer → Prop
  | .matches q, .verdict x f e => b.ExactVerdict (Counted bad b.rules q) q x f e
  | .find q, .verdict x f e => b.ExactVerdict (HostCounted b.rules q) q x f e
  | .tagExists t, .bool x => x = true ↔ t ∈ b.tags
  | .matches _, _ => False
  | .find _, _ => False
  | .tagExists _, _ => False
  | _, a => a = .done

def AllowsAllExact (E : Env) : Book → List Call → Prop
  | _, [] => True
  | b, c :: cs => b.AllowsExact E c ∧ AllowsAllExact E (b.after c) cs

def ExpectsAllExact (bad : List Bytes) : Book → List Call → List Answer → Prop
  | _, [], as => as = []
  | b, c :: cs, as => ∃ a as', as = a :: as' ∧ b.ExpectsExact bad c a ∧ ExpectsAllExact bad (b.after c) cs as'

end Book

end AdBlock.Spec
