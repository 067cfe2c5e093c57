/-
Base layer of the model: bytes, C memory as seen through a `char *`, and the
result type that keeps undefined behaviour (UB) a distinct outcome.

Nothing in this file models a particular function of /repo; it fixes how the C++
runtime facts the code relies on (reads through pointers, libc string functions)
are represented.  See DESIGN.md, "Trusted base".
-/
namespace AdBlock

/-- A C `char`, seen as an unsigned byte.  The code only compares chars for
equality (and indexes a table by `(unsigned char)c`), so signedness is irrelevant. -/
abbrev Byte := UInt8

/-- Contents of a C string, *without* the terminating NUL. -/
abbrev Bytes := List UInt8

/-- `ch%'x'` is the byte of the ASCII character `x`. -/
macro:max "ch%" c:char : term => do
  let n := Lean.Syntax.mkNumLit (toString c.getChar.toNat)
  `(($n : UInt8))

/-- `bs%"abc"` is the list of the (ASCII) bytes of `abc`. -/
macro:max "bs%" s:str : term => do
  let elems : Array (Lean.TSyntax `term) ← s.getString.toList.toArray.mapM fun c => do
    let n := Lean.Syntax.mkNumLit (toString c.toNat)
    `(($n : UInt8))
  `(([ $elems,* ] : List UInt8))

/-- Kinds of undefined behaviour the model can exhibit. -/
inductive UB where
  /-- a read outside the bounds of the allocation the pointer points into -/
  | oobRead
  /-- a dereference of (or pointer arithmetic yielding a dereference of) a null pointer -/
  | nullDeref
  /-- a write outside the bounds of the destination array -/
  | oobWrite
  /-- `delete[]` on memory that is not a live block owned by the deleter -/
  | badFree
  /-- a read from a block that has been freed -/
  | useAfterFree
  /-- not UB of the code: serialized data announce a negative count or size, for which
  `new[]` throws; the model does not follow the program any further -/
  | badSize
  /-- not UB of the code: the fuel of a modelled loop ran out.  Every theorem that a
  run is `ok` therefore also shows the fuel was sufficient. -/
  | fuel
deriving DecidableEq, Repr

/-- Outcome of running a piece of C++: a value, or undefined behaviour. -/
inductive Res (α : Type _) where
  | ok (a : α)
  | ub (u : UB)
deriving DecidableEq, Repr

namespace Res

/-- sequencing: UB is sticky -/
def bind {α β} (x : Res α) (f : α → Res β) : Res β :=
  match x with
  | ok a => f a
  | ub u => ub u

instance : Monad Res where
  pure := ok
  bind := bind

@[simp] theorem pure_eq {α} (a : α) : (pure a : Res α) = ok a := rfl
@[simp] theorem bind_ok {α β} (a : α) (f : α → Res β) : (ok a >>= f) = f a := rfl
@[simp] theorem bind_ub {α β} (u : UB) (f : α → Res β) : ((ub u : Res α) >>= f) = ub u := rfl
@[simp] theorem map_ok {α β} (a : α) (f : α → β) : f <$> (ok a) = ok (f a) := rfl
@[simp] theorem map_ub {α β} (u : UB) (f : α → β) : f <$> (ub u : Res α) = ub u := rfl

instance : LawfulMonad Res := LawfulMonad.mk'
  (id_map := by intro α x; cases x <;> rfl)
  (pure_bind := by intros; rfl)
  (bind_assoc := by intro α β γ x f g; cases x <;> rfl)

theorem bind_eq_ok {α β} {x : Res α} {f : α → Res β} {b : β} :
    (x >>= f) = ok b ↔ ∃ a, x = ok a ∧ f a = ok b := by
  cases x <;> simp

theorem map_eq_ok {α β} {x : Res α} {f : α → β} {b : β} :
    (f <$> x) = ok b ↔ ∃ a, x = ok a ∧ f a = b := by
  cases x <;> simp

/-- the outcome is a value -/
def isOk {α} : Res α → Bool
  | ok _ => true
  | ub _ => false

theorem isOk_iff {α} {x : Res α} : x.isOk = true ↔ ∃ a, x = ok a := by
  cases x <;> simp [isOk]

end Res

/-- A valid `char *`: the bytes from the pointee up to the end of its allocation.
`p + n` is `p.drop n`; reading beyond the end of the list is an out-of-bounds read. -/
abbrev Ptr := List UInt8

/-- `p[i]` -/
def rd (p : Ptr) (i : Nat) : Res Byte :=
  match p[i]? with
  | some c => .ok c
  | none => .ub .oobRead

/-- libc `strlen` -/
def strlen : Ptr → Res Nat
  | [] => .ub .oobRead
  | c :: p => if c = 0 then .ok 0 else (· + 1) <$> strlen p

/-- The memory of a NUL terminated string with contents `s`. -/
def cstr (s : Bytes) : Ptr := s ++ [0]

/-- The contents of the NUL terminated string at `p` (what `%s`, `strstr`, ... see). -/
def cstrAt : Ptr → Res Bytes
  | [] => .ub .oobRead
  | c :: p => if c = 0 then .ok [] else (c :: ·) <$> cstrAt p

/-- libc `!strcmp(p, q)` : true iff the two strings are equal -/
def strcmpEq : Ptr → Ptr → Res Bool
  | [], _ => .ub .oobRead
  | _ :: _, [] => .ub .oobRead
  | a :: p, b :: q =>
    if a ≠ b then .ok false
    else if a = 0 then .ok true
    else strcmpEq p q

/-- libc `!strncmp(p, q, n)` on memory -/
def strncmpPtrEq : Ptr → Ptr → Nat → Res Bool
  | _, _, 0 => .ok true
  | [], _, _ + 1 => .ub .oobRead
  | _ :: _, [], _ + 1 => .ub .oobRead
  | a :: p, b :: q, n + 1 =>
    if a ≠ b then .ok false
    else if a = 0 then .ok true
    else strncmpPtrEq p q n

/-- libc `!strncmp(s, t, n)` for two NUL terminated strings given by their contents -/
def strncmpEq (s t : Bytes) (n : Nat) : Bool := s.take n == t.take n

/-- libc `strstr(s, sub)` for NUL terminated strings given by their contents: the
offset of the first occurrence of `sub` in `s`. -/
def strstr (sub : Bytes) : Bytes → Option Nat
  | [] => if sub = [] then some 0 else none
  | c :: s => if sub.isPrefixOf (c :: s) then some 0 else (· + 1) <$> strstr sub s

end AdBlock
