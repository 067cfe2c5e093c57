import Verif.SpecSession
import Verif.Model.Wrap
/-
What `findMatchingFilters` should tell a program in JavaScript about a request, by the text of the rules.
-/
namespace AdBlock.Spec
open AdBlock

/-- A rule (an exception, if `s`) that applies to the request: shown are its text, and all of the rule
if rules are kept. -/
def ShowsRule (keep : Bool) (b : Book) (s : Bool) (q : Request) (text orig : Option Bytes) : Prop :=
  ∃ r ∈ b.rules, r.exception = s ∧ r.AppliesTo b.tags q ∧ text = some r.text ∧ orig = if keep then some r.body else none

/-- What is told about a request: whether it is to be blocked; a rule that applies, if there is one; and with
it an exception that applies, if there is one. -/
structure Tells (keep : Bool) (b : Book) (q : Request) (d : FoundData) : Prop where
  isMatch : d.isMatch = true ↔ b.SomeRule false q ∧ ¬ b.SomeRule true q
  rule : b.SomeRule false q → ShowsRule keep b false q d.matchingFilter d.matchingOrigRule
  noRule : ¬ b.SomeRule false q → d.matchingFilter = none ∧ d.matchingOrigRule = none
  exception : b.SomeRule false q → b.SomeRule true q → ShowsRule keep b true q d.matchingExceptionFilter d.matchingExceptionOrigRule
  noException : ¬ (b.SomeRule false q ∧ b.SomeRule true q) → d.matchingExceptionFilter = none ∧ d.matchingExceptionOrigRule = none

end AdBlock.Spec
