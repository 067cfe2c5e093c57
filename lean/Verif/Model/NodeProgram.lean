import Verif.Model.NodeArgs
import Verif.Model.Serialize
/-
Programs in JavaScript that use any number of clients (ad_block_client_wrap.cc): objects are created,
their methods are called, their data are saved and loaded into other objects, and they are cleaned
up.

Simplifications: variables are numbered, the objects and the buffers each in the order in which they are
made; programs do not write into buffers.  A client that has failed to load data is not followed any further
(`badSize`, as in `Model/Serialize`).
-/
namespace AdBlock

/-- What is thrown. -/
inductive Thrown where
  | typeError
  | error
deriving DecidableEq, Repr

/-- The argument of `deserialize`: none, something that is not an `ArrayBufferView`, or a buffer. -/
inductive BufferArg where
  | missing
  | other
  | buffer (bytes : Bytes)
deriving DecidableEq, Repr

variable {E : Env}

/-- ad_block_client_wrap.cc:326-350 `serialize`: the data are copied into a new buffer.  The arguments of
`AdBlockClient::serialize` have their default values (ad_block_client.h:44-46): rules about the contents of pages are
left out. -/
def Client.jsSerialize (c : Client E) : Res Bytes := do
  let s ← c.serialize true true
  pure s.buffer

/-- ad_block_client_wrap.cc:351-379 `deserialize`: the arguments are checked, then the bytes are copied (the memory is
the subject of `Model/Ownership`) and read. -/
def Client.jsDeserialize (c : Client E) : BufferArg → Res (Except Thrown (Client E))
  | .missing => pure (.error .typeError)
  | .other => pure (.error .error)
  | .buffer bytes => do
    match ← c.deserialize bytes with
    | none => .ub .badSize
    | some c => pure (.ok c)

/-- The objects and the buffers of a program.  An object that has been cleaned up is `none`: it still holds the pointer
to the client, which has been deleted. -/
structure NodeWorld (E : Env) where
  clients : List (Option (Client E)) := []
  buffers : List Bytes := []

/-- What is passed to `deserialize`. -/
inductive DataArg where
  | missing
  | other
  /-- the buffer with this number -/
  | saved (k : Nat)
deriving DecidableEq, Repr

/-- A statement: the creation of an object, or a method called on the object with this number. -/
inductive NodeStmt where
  | new
  | call (i : Nat) (x : JsCall)
  | find (i : Nat) (url : JsValue) (option : Mask) (page : JsValue)
  | serialize (i : Nat)
  | deserialize (i : Nat) (x : DataArg)
  | enableBadFingerprintDetection (i : Nat)
  | cleanup (i : Nat)

/-- What a statement returns or throws. -/
inductive NodeValue where
  | undefined
  | bool (b : Bool)
  | found (d : FoundData)
  | buffer (b : Bytes)
  | threw (t : Thrown)
deriving DecidableEq, Repr

/-- `ObjectWrap::Unwrap(args.Holder())`, and what is done with the client.  A method of a variable that has not been
given a value throws; the pointer of an object that has been cleaned up is dangling. -/
def NodeWorld.on (w : NodeWorld E) (i : Nat) (f : Client E → Res (NodeValue × NodeWorld E)) : Res (NodeValue × NodeWorld E) :=
  match w.clients[i]? with
  | none => pure (.threw .typeError, w)
  | some none => .ub .useAfterFree
  | some (some c) => f c

/-- the client of the object `i` has become `c` -/
def NodeWorld.put (w : NodeWorld E) (i : Nat) (c : Client E) : NodeWorld E := { w with clients := w.clients.set i (some c) }

/-- what the methods of `JsCall` return -/
def NodeValue.ofCall : Option Bool → NodeValue
  | none => .undefined
  | some b => .bool b

/-- the argument, as `deserialize` gets it -/
def NodeWorld.argument (w : NodeWorld E) : DataArg → BufferArg
  | .missing => .missing
  | .other => .other
  | .saved k => match w.buffers[k]? with
    | none => .other  -- a variable that has not been given a value is `undefined`
    | some b => .buffer b

/-- One statement: ad_block_client_wrap.cc:223-240 (`New`, with `new` or without), the methods, and 655-664
(`Cleanup`). -/
def NodeWorld.step (w : NodeWorld E) : NodeStmt → Res (NodeValue × NodeWorld E)
  | .new => pure (.undefined, { w with clients := w.clients ++ [some (Client.fresh E)] })
  | .call i x => w.on i fun c => do
    let (a, c) ← c.jsCall x
    pure (.ofCall a, w.put i c)
  | .find i url option page => w.on i fun c => do
    let d ← c.jsFind url option page
    pure (.found d, w)
  | .serialize i => w.on i fun c => do
    let b ← c.jsSerialize
    pure (.buffer b, { w with buffers := w.buffers ++ [b] })
  | .deserialize i x => w.on i fun c => do
    match ← c.jsDeserialize (w.argument x) with
    | .error t => pure (.threw t, w)
    | .ok c => pure (.bool true, w.put i c)
  | .enableBadFingerprintDetection i => w.on i fun c => pure (.undefined, w.put i c.enableBadFingerprintDetection)
  | .cleanup i => w.on i fun _ => pure (.undefined, { w with clients := w.clients.set i none })

/-- Statements in turn, and what they return.  (What is thrown is caught by the program.) -/
def NodeWorld.run (w : NodeWorld E) : List NodeStmt → Res (List NodeValue × NodeWorld E)
  | [] => pure ([], w)
  | x :: xs => do
    let (a, w) ← w.step x
    let (as, w) ← w.run xs
    pure (a :: as, w)

end AdBlock
