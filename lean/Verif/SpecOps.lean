import Verif.SpecClient
/-
Histories of calls: sequences of operations with the answers the caller gets.
-/
namespace AdBlock.Spec
open AdBlock

/-- The operations of a client. -/
inductive Op where
  | parse (input : Bytes) (preserve : Bool)
  | matches (url : Bytes) (ctx : Mask) (dom : Option Bytes)
  | find (url : Bytes) (ctx : Mask) (dom : Option Bytes)
  | addTag (t : Bytes)
  | removeTag (t : Bytes)
  | tagExists (t : Bytes)
  | clear
  | enableBadFingerprintDetection
deriving DecidableEq

/-- What the caller learns from an operation: nothing, a boolean, or the verdict with the
filter and the exception found. -/
inductive Answer where
  | done
  | bool (b : Bool)
  | verdict (block : Bool) (filter exception : Option Filter)
deriving DecidableEq

/-- Performing an operation. -/
def step {E : Env} (c : Client E) : Op → Res (Answer × Client E)
  | .parse input preserve => (fun c' => (.done, c')) <$> c.parse input preserve
  | .matches url ctx dom =>
    (fun o => (.verdict o.block o.filter o.exception, { c with stats := o.stats, badFps := o.badFps })) <$> c.query url ctx dom
  | .find url ctx dom => (fun r => (.verdict r.block r.filter r.exception, c)) <$> c.findMatchingFilters url ctx dom
  | .addTag t => .ok (.done, c.addTag t)
  | .removeTag t => .ok (.done, c.removeTag t)
  | .tagExists t => .ok (.bool (c.tagExists t), c)
  | .clear => .ok (.done, c.clear)
  | .enableBadFingerprintDetection => .ok (.done, c.enableBadFingerprintDetection)

/-- Performing a sequence of operations: the answers, in order, and the client afterwards. -/
def run {E : Env} (c : Client E) : List Op → Res (List Answer × Client E)
  | [] => .ok ([], c)
  | op :: ops => step c op >>= fun (a, c1) => run c1 ops >>= fun (as, c2) => .ok (a :: as, c2)

/-- `matches` and `findMatchingFilters`. -/
def Op.IsQuery : Op → Prop
  | .matches .. => True
  | .find .. => True
  | _ => False

/-- `addTag(t)` and `removeTag(t)`. -/
def Op.isTag (t : Bytes) (op : Op) : Bool := op == .addTag t || op == .removeTag t

end AdBlock.Spec
