import Verif.SpecOps
import Verif.SpecRequest
/-
Lines that hold no network rule, and sequences of calls which differ only in such lines.
-/
namespace AdBlock.Spec
open AdBlock

/-- Lines of a list which hold no network rule: blank lines, comments, regular expressions, options without a rule, element
hiding rules, and lines of more than 2047 bytes before any options. -/
inductive Silent (line : Bytes) : Prop
  | idle : Idle line → Silent line
  | remark : Remark line → Silent line
  | regex : RegexLine line → Silent line
  | options : BareOptions line → Silent line
  /-- element hiding: anything, `##` or `#@`, and what to hide -/
  | elements {before mark selector} : Begins line before (mark ++ selector) → mark ∈ [bs%"##", bs%"#@"] → before.length < 2047 →
      Silent line
  | long {before rest} : Begins line before rest → before.length = 2047 → rest ≠ [] → ¬ HasHost line → Silent line

/-- Two lists with the same lines in the same order, apart from lines without a network rule. -/
def SameRules (A B : Bytes) : Prop :=
  0 ∉ A ∧ 0 ∉ B ∧ ∃ keep : Bytes → Bool, (∀ l, keep l = false → Silent l) ∧ (lines A).filter keep = (lines B).filter keep

/-- The same call, or the loading of two such lists. -/
inductive SameCall : Op → Op → Prop
  | same (op : Op) : SameCall op op
  | load {A B : Bytes} (preserve : Bool) : SameRules A B → SameCall (.parse A preserve) (.parse B preserve)

/-- Two programs with the same calls, apart from lines without a network rule in the lists they load. -/
inductive SameCalls : List Op → List Op → Prop
  | nil : SameCalls [] []
  | cons {op op' ops ops'} : SameCall op op' → SameCalls ops ops' → SameCalls (op :: ops) (op' :: ops')

end AdBlock.Spec
