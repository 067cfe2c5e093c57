import Verif.Model.Ownership
/-
What a well-behaved user of the interface does, and which lines of a list repeat an option:
the two conditions under which the client's memory management is right.  What it means that memory
can be read.
-/
namespace AdBlock.Own

/-- Serialized data are loaded only into a client on which no `parse` follows until it has been
cleared.  The flag says whether serialized data have been loaded since the last `clear`. -/
def Disciplined : Bool → List OOp → Prop
  | _, [] => True
  | loaded, .parse _ _ :: ops => loaded = false ∧ Disciplined false ops
  | _, .deserialize _ :: ops => Disciplined true ops
  | _, .clear :: ops => Disciplined false ops
  | loaded, .query _ _ :: ops => Disciplined loaded ops
  | loaded, .serialize :: ops => Disciplined loaded ops
  | loaded, .enableBad :: ops => Disciplined loaded ops

/-- Does an option give the list of domains? -/
def domainOption (o : Bytes) : Bool :=
  bs%"domain=".isPrefixOf (if o.head? = some ch%'~' then o.drop 1 else o)

/-- Does an option give the tag? -/
def tagOption (o : Bytes) : Bool :=
  bs%"tag=".isPrefixOf (if o.head? = some ch%'~' then o.drop 1 else o)

/-- A line gives its list of domains at most once, and its tag at most once. -/
def Line.NoRepeat (l : Line) : Prop :=
  (l.sites = false ∨ l.options.countP domainOption = 0) ∧ l.options.countP domainOption ≤ 1 ∧ l.options.countP tagOption ≤ 1

/-- The pointer is null, or the block it points to is in use. -/
def Readable (h : Heap) : Pt → Prop
  | .null => True
  | .start b => b ∈ h.live
  | .inner b => b ∈ h.live

/-- All strings of a rule can be read. -/
def ReadableFilter (h : Heap) (f : OFilter) : Prop :=
  Readable h f.data ∧ Readable h f.domainList ∧ Readable h f.tag ∧ Readable h f.host ∧ Readable h f.ruleDefinition

end AdBlock.Own
