import Verif.Model.Lib
/-
Model of cosmetic_filter.h: the set of cosmetic filters and the style sheet made from it.

A `CosmeticFilter` is represented by the contents of its `data` (cosmetic_filter.h:25-34, 64:
`data` is always a copy ending in NUL).  The sizes are natural numbers: the wraparound of
`uint32_t` at 4 GB is not modelled.
-/
namespace AdBlock

/-- cosmetic_filter.h:69-70 `CosmeticFilterHashSet()` -/
def cosmeticSet : HSet Bytes := HSet.new 1000

/-- `Add(CosmeticFilter(s))`: `operator==` compares the strings (cosmetic_filter.h:39-41),
`hash` is `HashFn(19)` of the string (cosmetic_filter.cc:9-13), `Update` does nothing
(cosmetic_filter.h:48). -/
def addCosmetic (E : Env) (s : HSet Bytes) (x : Bytes) : HSet Bytes := s.add (· == ·) E.hash x

/-- `memcpy(buffer + at, w, strlen(w))` into a buffer of a given size. -/
def memcpyAt (buffer : Bytes) (at_ : Nat) (w : Bytes) : Res Bytes :=
  if at_ + w.length ≤ buffer.length then
    pure (buffer.take at_ ++ w ++ buffer.drop (at_ + w.length))
  else .ub .oobWrite

/-- `if (buffer) memcpy(buffer + len, w, ...)` -/
def optWrite (buffer : Option Bytes) (len : Nat) (w : Bytes) : Res (Option Bytes) :=
  match buffer with
  | none => pure none
  | some b => some <$> memcpyAt b len w

/-- cosmetic_filter.h:85-101: the loop over the items of a bucket. -/
def fillItems : List Bytes → Option Bytes → Nat → Res (Option Bytes × Nat)
  | [], buffer, len => pure (buffer, len)
  | x :: next, buffer, len => do
    let buffer ← optWrite buffer len x
    let len := len + x.length
    if next.isEmpty then fillItems next buffer len
    else do
      let buffer ← optWrite buffer len bs%", "
      fillItems next buffer (len + 2)

/-- cosmetic_filter.h:82-102: the loop over the buckets; `len` restarts at 0 in each (84). -/
def fillBuckets : List (List Bytes) → Option Bytes → Nat → Res (Option Bytes × Nat)
  | [], buffer, len => pure (buffer, len)
  | b :: bs, buffer, _ => do
    let (buffer, len) ← fillItems b buffer 0
    fillBuckets bs buffer len

/-- cosmetic_filter.h:80-104 `fillStylesheetBuffer` -/
def fillStylesheetBuffer (s : HSet Bytes) (buffer : Option Bytes) : Res (Option Bytes × Nat) :=
  fillBuckets ((List.range s.count).map s.bucket) buffer 0

/-- cosmetic_filter.h:71-77 `toStylesheet`: the contents of the returned buffer (its length is
what `*len` gets). -/
def toStylesheet (s : HSet Bytes) : Res Bytes := do
  let (_, len) ← fillStylesheetBuffer s none
  let (b, _) ← fillStylesheetBuffer s (some (List.replicate len 0))
  pure (b.getD [])

end AdBlock
