import Verif.SpecRequest
import Verif.SpecOps
/-
Sessions: what a user of a client may expect from a sequence of calls, in terms of the text of
the rules alone.  The expectation is computed by a "book" that keeps the rules loaded so far
and the tags enabled.
-/
namespace AdBlock.Spec
open AdBlock

/-- What a user keeps in mind about a client: the rules and the tags. -/
structure Book where
  rules : List RuleText := []
  tags : List Bytes := []

/-- A call.  `rules` are the rules in the list that is loaded. -/
inductive Call where
  | load (input : Bytes) (preserve : Bool) (rules : List RuleText)
  | clear
  | addTag (t : Bytes)
  | removeTag (t : Bytes)
  | tagExists (t : Bytes)
  | matches (q : Request)
  | find (q : Request)
  | enableBadFingerprintDetection

/-- the operation of the client -/
def Call.op : Call → Op
  | .load input preserve _ => .parse input preserve
  | .clear => .clear
  | .addTag t => .addTag t
  | .removeTag t => .removeTag t
  | .tagExists t => .tagExists t
  | .matches q => .matches q.url q.context q.domain
  | .find q => .find q.url q.context q.domain
  | .enableBadFingerprintDetection => .enableBadFingerprintDetection

namespace Book

/-- The effect of a call.  Clearing forgets the rules, but not the tags. -/
def after (b : Book) : Call → Book
  | .load _ _ rules => { b with rules := b.rules ++ rules }
  | .clear => { b with rules := [] }
  | .addTag t => { b with tags := t :: b.tags }
  | .removeTag t => { b with tags := b.tags.filter (· ≠ t) }
  | _ => b

/-- Some rule (exception, if `s`) applies to the request. -/
def SomeRule (b : Book) (s : Bool) (q : Request) : Prop :=
  ∃ r ∈ b.rules, r.exception = s ∧ r.AppliesTo b.tags q

/-- What is reported as a matching rule or exception stands for a rule that applies. -/
def Reported (b : Book) (s : Bool) (q : Request) (f : Filter) : Prop :=
  ∃ r ∈ b.rules, r.exception = s ∧ r.AppliesTo b.tags q ∧ ∃ preserve, CopyOf f (r.filter preserve)

/-- The answer to a query: the request is to be blocked exactly if some rule applies to it, and
no exception does.  A rule is reported if one applies; and with it an exception, if one applies. -/
structure Verdict (b : Book) (q : Request) (block : Bool) (filter exception : Option Filter) : Prop where
  blocked : block = true ↔ b.SomeRule false q ∧ ¬ b.SomeRule true q
  matched : filter ≠ none ↔ b.SomeRule false q
  excepted : exception ≠ none ↔ b.SomeRule false q ∧ b.SomeRule true q
  isRule : ∀ f, filter = some f → b.Reported false q f
  isException : ∀ e, exception = some e → b.Reported true q e

/-- The calls considered: lists and web requests to which no known defect applies (with the rules that
are loaded). -/
def Allows (E : Env) (b : Book) : Call → Prop
  | .load input _ rules => 0 ∉ input ∧ ListOf (lines input) rules ∧ SoundList E.bad (b.rules ++ rules)
  | .matches q => q.Web ∧ Clear E.bad b.rules q ∧ E.fp.rolls q.url
  | .find q => q.Web ∧ Clear E.bad b.rules q
  | _ => True

/-- The answer the user expects. -/
def Expects (b : Book) : Call → Answer → Prop
  | .matches q, .verdict x f e => b.Verdict q x f e
  | .find q, .verdict x f e => b.Verdict q x f e
  | .tagExists t, .bool x => x = true ↔ t ∈ b.tags
  | .matches _, _ => False
  | .find _, _ => False
  | .tagExists _, _ => False
  | _, a => a = .done

/-- All calls of a session are among those considered. -/
def AllowsAll (E : Env) : Book → List Call → Prop
  | _, [] => True
  | b, c :: cs => b.Allows E c ∧ AllowsAll E (b.after c) cs

/-- All answers are as expected. -/
def ExpectsAll : Book → List Call → List Answer → Prop
  | _, [], as => as = []
  | b, c :: cs, as => ∃ a as', as = a :: as' ∧ b.Expects c a ∧ ExpectsAll (b.after c) cs as'

end Book

end AdBlock.Spec
