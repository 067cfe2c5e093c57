import Verif.SpecClient
/-
What the programs around the library are measured by.
-/
namespace AdBlock.Spec
open AdBlock

/-- Asked about this address alone, for this type of resource and page, the client answers `b`. -/
def Judges {E : Env} (c : Client E) (option : Mask) (page : Bytes) (site : Bytes) (b : Bool) : Prop :=
  ∃ o, c.query site option (some page) = .ok o ∧ o.block = b

/-! ### C++ source text -/

/-- simple escape sequences (C++ standard, [lex.ccon]) -/
def simpleEscape (c : Byte) : Option Byte :=
  if c = ch%'n' then some 10 else if c = ch%'t' then some 9 else if c = ch%'r' then some 13
  else if c = ch%'a' then some 7 else if c = ch%'b' then some 8 else if c = ch%'f' then some 12
  else if c = ch%'v' then some 11
  else if c = ch%'\\' ∨ c = ch%'"' ∨ c = ch%'\'' ∨ c = ch%'?' then some c
  else none

/-- where in a list of string literals a compiler is: in front of an element, inside of a literal,
behind a backslash, or behind a literal -/
inductive LexState where
  | before
  | inside (w : Bytes)
  | escape (w : Bytes)
  | behind (w : Bytes)

/-- The strings which a compiler reads in `"...", "...", ... }`.  `none` if it is no such list, or
contains escape sequences other than the simple ones. -/
def readStrings : LexState → Bytes → Option (List Bytes)
  | _, [] => none
  | .before, c :: s =>
    if c = ch%' ' ∨ c = 10 then readStrings .before s
    else if c = ch%'"' then readStrings (.inside []) s
    else if c = ch%'}' then some []
    else none
  | .inside w, c :: s =>
    if c = ch%'"' then readStrings (.behind w) s
    else if c = ch%'\\' then readStrings (.escape w) s
    else if c = 10 then none
    else readStrings (.inside (w ++ [c])) s
  | .escape w, c :: s =>
    match simpleEscape c with
    | some b => readStrings (.inside (w ++ [b])) s
    | none => none
  | .behind w, c :: s =>
    if c = ch%' ' ∨ c = 10 then readStrings (.behind w) s
    else if c = ch%'"' then readStrings (.inside w) s  -- adjacent literals are one
    else if c = ch%',' then (readStrings .before s).map (w :: ·)
    else if c = ch%'}' then some [w]
    else none

/-- The strings of the first array in a file, which is initialised by a list of literals. -/
def firstArray (file : Bytes) : Option (List Bytes) :=
  readStrings .before ((file.dropWhile (· ≠ ch%'{')).drop 1)

/-- No quote, no backslash, no line feed. -/
def LiteralText (w : Bytes) : Prop := ∀ c ∈ w, c ≠ ch%'"' ∧ c ≠ ch%'\\' ∧ c ≠ 10

end AdBlock.Spec
