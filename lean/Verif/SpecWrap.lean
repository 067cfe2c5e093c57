import Verif.SpecOps
import Verif.SpecSerialize
import Verif.Model.Wrap
/-
The operations of a client as used from Node, including `getFilters`, and what `getFilters`
should report.
-/
namespace AdBlock.Spec
open AdBlock

/-- The operations of a client used from Node. -/
inductive NodeOp where
  | op (o : Op)
  | getFilters (name : Bytes)
  /-- not a call of the user: at any time, the program may compute the lengths of the texts of any
  of its rules and store them -/
  | storeLengths (which : ListId → Nat → Bool)

/-- What the caller learns. -/
inductive NodeAnswer where
  | op (a : Answer)
  | filters (rs : List Report)
  | none
deriving DecidableEq

/-- Performing an operation.  After `clear`, the rules are new ones; `parse` keeps the old rules at
their places. -/
def nodeStep {E : Env} (w : NodeClient E) : NodeOp → Res (NodeAnswer × NodeClient E)
  | .op o => (fun r => (.op r.1, { w with
      client := r.2, hostLen := if o = .clear then fun _ _ => Option.none else w.hostLen })) <$> step w.client o
  | .getFilters name => (fun r => (.filters r.1, r.2)) <$> w.getFilters name
  | .storeLengths which => .ok (.none, { w with client := { w.client with
      lists := fun id => (w.client.lists id).mapIdx fun i f => if which id i then f.cached else f } })

/-- Performing a sequence of operations. -/
def nodeRun {E : Env} (w : NodeClient E) : List NodeOp → Res (List NodeAnswer × NodeClient E)
  | [] => .ok ([], w)
  | op :: ops => nodeStep w op >>= fun (a, w1) => nodeRun w1 ops >>= fun (as, w2) => .ok (a :: as, w2)

/-- The calls other than `getFilters`. -/
def plainOps (ops : List NodeOp) : List Op := ops.filterMap fun
  | .op o => some o
  | _ => none

/-- The answers to the calls other than `getFilters`. -/
def plainAnswers (as : List NodeAnswer) : List Answer := as.filterMap fun
  | .op a => some a
  | _ => none

/-- The same rule, up to whether the length of its text has been stored. -/
def SameUpToLength (f g : Filter) : Prop := ∃ n, g = { f with dataLen := n }

/-- The same answer, up to the stored lengths in the rules reported. -/
inductive SameAnswer : Answer → Answer → Prop
  | done : SameAnswer .done .done
  | bool (b : Bool) : SameAnswer (.bool b) (.bool b)
  | verdict (b : Bool) {f g e e' : Option Filter} : SamePointer SameUpToLength f g → SamePointer SameUpToLength e e' →
      SameAnswer (.verdict b f e) (.verdict b g e')

/-- What `getFilters` should report about a rule.  Texts and hosts that are empty may be left out. -/
structure Describes (f : Filter) (r : Report) : Prop where
  text : ∀ pat, HasText f pat → r.data = some pat ∨ pat = [] ∧ r.data = none
  noText : f.data = none → r.data = none
  host : ∀ h, f.host = some h → r.host = some h ∨ h = [] ∧ r.host = none
  noHost : f.host = none → r.host = none
  domainList : r.domainList = match f.domainList with
    | none => []
    | some dl => (positive dl).filter (· ≠ [])
  antiDomainList : r.antiDomainList = match f.domainList with
    | none => []
    | some dl => negative dl
  isDomainOnlyFilter : r.isDomainOnlyFilter = true ↔ OnlyPositive f ∧ has f.filterType FTException = false
  isAntiDomainOnlyFilter : r.isAntiDomainOnlyFilter = true ↔ OnlyNegative f ∧ has f.filterType FTException = false
  isDomainOnlyExceptionFilter :
    r.isDomainOnlyExceptionFilter = true ↔ OnlyPositive f ∧ has f.filterType FTException = true
  isAntiDomainOnlyExceptionFilter :
    r.isAntiDomainOnlyExceptionFilter = true ↔ OnlyNegative f ∧ has f.filterType FTException = true
  tag : r.tag = f.tag

/-- Rules which `getFilters` reports for a name. -/
inductive Under (bad : List Bytes) : Bytes → Filter → Prop
  | filters {f} : f.hasUnsupportedOptions = false → Blocking f → has f.filterType FTHostOnly = false →
      HasFingerprint bad f → Under bad bs%"filters" f
  | exceptionFilters {f} : f.hasUnsupportedOptions = false → IsException f → has f.filterType FTHostOnly = false →
      HasFingerprint bad f → Under bad bs%"exceptionFilters" f
  | noFp {f} : f.hasUnsupportedOptions = false → Unindexed bad false f → ¬ OnlyPositive f → ¬ OnlyNegative f →
      Under bad bs%"noFingerprintFilters" f
  | noFpException {f} : f.hasUnsupportedOptions = false → Unindexed bad true f → ¬ OnlyPositive f → ¬ OnlyNegative f →
      Under bad bs%"noFingerprintExceptionFilters" f
  | domainOnly {f} : f.hasUnsupportedOptions = false → Unindexed bad false f → OnlyPositive f →
      Under bad bs%"noFingerprintDomainOnlyFilters" f
  | antiDomainOnly {f} : f.hasUnsupportedOptions = false → Unindexed bad false f → OnlyNegative f →
      Under bad bs%"noFingerprintAntiDomainOnlyFilters" f
  | domainOnlyException {f} : f.hasUnsupportedOptions = false → Unindexed bad true f → OnlyPositive f →
      Under bad bs%"noFingerprintDomainOnlyExceptionFilters" f
  | antiDomainOnlyException {f} : f.hasUnsupportedOptions = false → Unindexed bad true f → OnlyNegative f →
      Under bad bs%"noFingerprintAntiDomainOnlyExceptionFilters" f
  | cosmetic {f} : f.hasUnsupportedOptions = false →
      f.filterType = FTElementHiding ∨ f.filterType = FTElementHidingException → Under bad bs%"cosmeticFilters" f
  | html {f} : f.hasUnsupportedOptions = false → f.filterType = FTHTMLFiltering → Under bad bs%"htmlFilters" f

end AdBlock.Spec
