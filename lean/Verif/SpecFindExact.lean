import Verif.SpecFind
import Verif.SpecExact
/-
What `findMatchingFilters` tells a program in JavaScript about a request, exactly: C61 without the conditions of C59.
-/
namespace AdBlock.Spec
open AdBlock

/-- A rule (an exception, if `s`) that counts and applies to the request: shown are its text, and all of the rule if rules
are kept. -/
def ShowsCounted (keep : Bool) (b : Book) (s : Bool) (q : Request) (text orig : Option Bytes) : Prop :=
  ∃ r ∈ b.rules, r.exception = s ∧ HostCounted b.rules q r ∧ r.AppliesTo b.tags q ∧ text = some r.text ∧ orig = if keep then some r.body else none

/-- What is told about a request: as `Tells`, by the rules that count. -/
structure TellsExactly (keep : Bool) (b : Book) (q : Request) (d : FoundData) : Prop where
  isMatch : d.isMatch = true ↔ b.CountedRule (HostCounted b.rules q) false q ∧ ¬ b.CountedRule (HostCounted b.rules q) true q
  rule : b.CountedRule (HostCounted b.rules q) false q → ShowsCounted keep b false q d.matchingFilter d.matchingOrigRule
  noRule : ¬ b.CountedRule (HostCounted b.rules q) false q → d.matchingFilter = none ∧ d.matchingOrigRule = none
  exception : b.CountedRule (HostCounted b.rules q) false q → b.CountedRule (HostCounted b.rules q) true q →
    ShowsCounted keep b true q d.matchingExceptionFilter d.matchingExceptionOrigRule
  noException : ¬ (b.CountedRule (HostCounted b.rules q) false q ∧ b.CountedRule (HostCounted b.rules q) true q) →
    d.matchingExceptionFilter = none ∧ d.matchingExceptionOrigRule = none

/-- A rule (an exception, if `s`) consisting of a host counts and applies. -/
def HostApplies (b : Book) (s : Bool) (q : Request) : Prop := b.CountedRule (fun r => r.HostOnly ∧ HostCounted b.rules q r) s q

/-- `findMatchingFilters` comes upon a rule that consists of a host: as the rule to show, if no other rule applies; or, there
being a rule that applies, as the exception to show, unless another exception applies that cannot be indexed. -/
def FindsHost (bad : List Bytes) (b : Book) (q : Request) : Prop :=
  (HostApplies b false q ∧ ¬ b.CountedRule (fun r => ¬ r.HostOnly) false q) ∨
  (b.CountedRule (HostCounted b.rules q) false q ∧ HostApplies b true q ∧
    ¬ b.CountedRule (fun r => ¬ r.HostOnly ∧ ¬ r.Indexable bad) true q)

end AdBlock.Spec
