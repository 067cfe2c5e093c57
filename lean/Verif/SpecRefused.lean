import Verif.SpecOps
import Verif.Model.Refused
/-
Sessions in which data are loaded that may be refused.
-/
namespace AdBlock.Spec
open AdBlock

/-- A call in a session: an operation, or loading data from a buffer (with what the hash set that is refused, if any, holds
afterwards). -/
inductive LoadOp where
  | op (o : Op)
  | load (left : Leftover) (buffer : Ptr)

/-- Performing a call. -/
def loadStep {E : Env} (c : Client E) : LoadOp → Res (Answer × Client E)
  | .op o => step c o
  | .load left buffer => (fun r => (.bool r.1, r.2)) <$> c.deserializeInto left buffer

/-- Performing a sequence of calls: the answers, in order, and the client afterwards. -/
def loadRun {E : Env} (c : Client E) : List LoadOp → Res (List Answer × Client E)
  | [] => .ok ([], c)
  | op :: ops => loadStep c op >>= fun (a, c1) => loadRun c1 ops >>= fun (as, c2) => .ok (a :: as, c2)

end AdBlock.Spec
