import Verif.SpecOps
import Verif.SpecSerialize
import Verif.SpecReread
/-
Sessions in which a client is saved and loaded again.
-/
namespace AdBlock.Spec
open AdBlock

/-- Two clients with the same network rules and indexes.  The second one may lack rules about the
contents of pages. -/
structure SameNetwork {E : Env} (c d : Client E) : Prop where
  lists : ∀ id, id ≠ .cosmetic ∧ id ≠ .html → Pointwise SameRule (c.lists id) (d.lists id)
  pageRules : ∀ id, ∃ l, l <:+ c.lists id ∧ Pointwise SameRule l (d.lists id)
  numHostAnchoredFilters : d.numHostAnchoredFilters = c.numHostAnchoredFilters
  numHostAnchoredExceptionFilters : d.numHostAnchoredExceptionFilters = c.numHostAnchoredExceptionFilters
  bloom : d.bloom = c.bloom
  exceptionBloom : d.exceptionBloom = c.exceptionBloom
  hostSet : SamePointer (SameSet SameEntry) c.hostSet d.hostSet
  hostExceptionSet : SamePointer (SameSet SameEntry) c.hostExceptionSet d.hostExceptionSet
  domSets : ∀ i, SamePointer (SameSet Eq) (c.domSets i) (d.domSets i)

/-- A call in a session: an operation, or saving the client and going on with a new one that has
loaded the data. -/
inductive SaveOp where
  | op (o : Op)
  | reload

/-- the operation, if it is one -/
def SaveOp.op? : SaveOp → Option Op
  | .op o => some o
  | .reload => none

/-- The session starting with the client `d` runs without undefined behaviour, gets these answers
and ends with this client.  Data are written as from Node, without the rules about the contents of
pages, and read into a new client in which the same tags are enabled. -/
inductive Session {E : Env} : Client E → List SaveOp → List Answer → Client E → Prop
  | nil {d} : Session d [] [] d
  | op {d d1 d2 o a calls as} : step d o = .ok (a, d1) → Session d1 calls as d2 → Session d (.op o :: calls) (a :: as) d2
  | reload {d d1 d2 s calls as} : d.serialize true true = .ok s →
      ({ Client.fresh E with tags := d.tags } : Client E).deserialize s.buffer = .ok (some d1) →
      Session d1 calls as d2 → Session d (.reload :: calls) as d2

/-- Two answers which are the same to the user: the same verdict, and the same rules reported. -/
inductive AlikeAnswer : Answer → Answer → Prop
  | done : AlikeAnswer .done .done
  | bool (b : Bool) : AlikeAnswer (.bool b) (.bool b)
  | verdict {block f f' e e'} : SamePointer SameReport f f' → SamePointer SameReport e e' →
      AlikeAnswer (.verdict block f e) (.verdict block f' e')

/-- Operations with strings (which have no NUL), and lists whose rules the format can represent, apart
from the element hiding and HTML rules, which are not saved. -/
def SavableOp (bad : List Bytes) : Op → Prop
  | .parse input preserve => 0 ∉ input ∧ ∀ fs, Reads bad preserve (lines input) fs → ∀ f ∈ fs, LeftOut true true f ∨ Representable f
  | .matches url _ _ => 0 ∉ url
  | .find url _ _ => 0 ∉ url
  | _ => True

/-- Operations with strings, which have no NUL. -/
def StringsOp : Op → Prop
  | .parse input _ => 0 ∉ input
  | .matches url _ _ => 0 ∉ url
  | .find url _ _ => 0 ∉ url
  | _ => True

/-- The session in which nothing is saved: instead, every rule is replaced by what would be read back of it. -/
def replay {E : Env} (c : Client E) : List SaveOp → Res (List Answer × Client E)
  | [] => .ok ([], c)
  | .op o :: calls => do
    let (a, c) ← step c o
    let (as, c) ← replay c calls
    .ok (a :: as, c)
  | .reload :: calls => replay (rereadClient c) calls

/-- The data a client writes are smaller than 2 GB. -/
def Fits {E : Env} (c : Client E) : Prop :=
  (c.numHostAnchoredFilters < 2 ^ 31 ∧ c.numHostAnchoredExceptionFilters < 2 ^ 31) ∧
  ∀ s, c.serialize true true = .ok s → s.totalSize < 2 ^ 31

end AdBlock.Spec
