import Verif.Model.Serialize
/-
`deserialize` with the client it leaves behind when it returns false.  Models ad_block_client.cc:1060-1072
and 1782-1891 once more; `Client.deserialize` in `Serialize.lean` stops at this point.
-/
namespace AdBlock

/-- What is in a hash set after its `Deserialize` has returned false.  This is up to the library `hashset-cpp`,
and left open here. -/
structure Leftover where
  filters : HSet Filter
  domains : HSet Bytes

/-- ad_block_client.cc:1060-1072 `initHashSet` with a null `*pp`: the value returned, and `*pp` afterwards -/
def initHashSetInto {T} (de : Ptr → Nat → Res (Option (T × Nat))) (left : HSet T) (p : Ptr) (len : Nat) :
    Res (Bool × Option (HSet T)) :=
  if len = 0 then pure (true, none)
  else do
    match ← HSet.deserialize de p len with
    | none => pure (false, some left)
    | some s => pure (true, some s)

/-- ad_block_client.cc:1866-1888: the four domain hash sets; those behind the first one that is refused stay null
pointers (`getD` below). -/
def readSetsInto (left : HSet Bytes) : List Nat → Ptr → Res (Bool × List (Option (HSet Bytes)))
  | [], _ => pure (true, [])
  | n :: ns, p => do
    let (ok, s) ← initHashSetInto deserializeDomain left p n
    if ok then do
      let (ok, ss) ← readSetsInto left ns (p.drop n)
      pure (ok, s :: ss)
    else pure (false, [s])

/-- ad_block_client.cc:1782-1891 `deserialize`: the value returned, and the client afterwards -/
def Client.deserializeInto {E} (left : Leftover) (c : Client E) (buffer : Ptr) : Res (Bool × Client E) := do
  let c := c.clear
  let sz ← cstrAt buffer
  let v ← headerNats (scanXs (List.replicate 20 0) sz)
  let (lists, p) ← readLists (v.take 10) (buffer.drop (sz.length + 1))
  let bloom ← initBloomFilter E p (v.getD 12 0)
  let p := p.drop (v.getD 12 0)
  let exceptionBloom ← initBloomFilter E p (v.getD 13 0)
  let p := p.drop (v.getD 13 0)
  let c := { c with
    lists := fun id => lists.getD id.index []
    numHostAnchoredFilters := v.getD 10 0
    numHostAnchoredExceptionFilters := v.getD 11 0
    bloom := bloom
    exceptionBloom := exceptionBloom
    deserializedBuffer := some buffer }
  let (ok, hostSet) ← initHashSetInto Filter.deserialize left.filters p (v.getD 14 0)
  if ok then do
    let p := p.drop (v.getD 14 0)
    let (ok, hostExceptionSet) ← initHashSetInto Filter.deserialize left.filters p (v.getD 15 0)
    if ok then do
      let (ok, sets) ← readSetsInto left.domains (v.drop 16) (p.drop (v.getD 15 0))
      pure (ok, { c with hostSet := hostSet, hostExceptionSet := hostExceptionSet, domSets := fun d => sets.getD d.index none })
    else pure (false, { c with hostSet := hostSet, hostExceptionSet := hostExceptionSet })
  else pure (false, { c with hostSet := hostSet })

/-- lib/util.js:37-49 `makeAdBlockClientFromDATFile`: the promise is rejected if the file cannot be read (`none`); otherwise it
is fulfilled with the client, whether `deserialize` returned true or not. -/
def makeClientFromDATFileInto (E : Env) (left : Leftover) (readFile : Bytes → Option Bytes) (path : Bytes) : Option (Res (Client E)) :=
  (readFile path).map fun data => Prod.snd <$> (Client.fresh E).deserializeInto left data

end AdBlock
