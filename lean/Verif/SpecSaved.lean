import Verif.SpecSession
import Verif.SpecReload
import Verif.SpecOps
/-
Sessions in which a client is saved and loaded again, described by the text of the rules.
-/
namespace AdBlock.Spec
open AdBlock

/-- A call in such a session: one of those of `SpecSession`, or saving the client and going on with a
new one that has loaded the data. -/
inductive SavedCall where
  | call (c : Call)
  | reload

def SavedCall.op : SavedCall → SaveOp
  | .call c => .op c.op
  | .reload => .reload

/-- the call, if it is one -/
def SavedCall.call? : SavedCall → Option Call
  | .call c => some c
  | .reload => none

/-- A bloom filter keeps its size when something is added (contract of the bloom-filter library). -/
def FixedBlooms (E : Env) : Prop := ∀ b s, (E.fp.buffer (E.fp.add b s)).length = (E.fp.buffer b).length

/-- The number of bytes of the lists that were loaded since the client was last cleared, counting the
terminating NULs: how a call changes it. -/
def loadedAfter (n : Nat) : Op → Nat
  | .parse input _ => n + (input.length + 1)
  | .clear => 0
  | _ => n

/-- The number of bytes of the lists that were loaded since the client was last cleared. -/
def loadedBytes (ops : List Op) : Nat := ops.foldl loadedAfter 0

/-- The two bloom filters of a client are of moderate size when they are made (in fact 150000 and
25000 bytes). -/
def ModerateBlooms (E : Env) : Prop :=
  (E.fp.buffer (E.fp.new 15 80000)).length ≤ 2 ^ 20 ∧ (E.fp.buffer (E.fp.new 10 20000)).length ≤ 2 ^ 20

/-- Lists that survive being saved: no rule has an empty text, no `domain=` list is empty, none in a rule without tag
starts with `~#`, no regular expression is empty, and the list is smaller than 2 GB. -/
structure SavableList (input : Bytes) (rs : List RuleText) : Prop where
  texts : ∀ r ∈ rs, r.text ≠ []
  domains : ∀ r ∈ rs, ∀ dl, r.value bs%"domain=" = some dl →
    dl ≠ [] ∧ (r.value bs%"tag=" = none ∨ r.value bs%"tag=" = some [] → ¬ bs%"~#" <+: dl)
  regex : ∀ l ∈ [bs%"//", bs%" /", bs%"\t/"], l ∉ lines input
  size : input.length < 2 ^ 31

/-- All lists of the session are of this kind. -/
def SavableCall : SavedCall → Prop
  | .call (.load input _ rules) => SavableList input rules
  | _ => True

end AdBlock.Spec
