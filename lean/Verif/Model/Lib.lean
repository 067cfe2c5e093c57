import Verif.Model.Filter
/-
The two vendored libraries (bloom-filter-cpp and hashset-cpp).  Their source is *not* in
/repo (it is fetched into node_modules / vendor at build time), so they enter the model as

* `BloomLib`: an abstract bloom filter with the laws the client relies on,
* `HSet`: a chained hash table with an arbitrary hash function.

The laws and the shape of `HSet` are part of the trusted base (DESIGN.md).
-/
namespace AdBlock

/-- Interface of the class `BloomFilter` of the bloom-filter-cpp library as used by
ad_block_client.cc:791-795, 830-831, 902-904, 1050-1058, 1087-1092, 1611-1612, 1678-1687.

The laws say: no false negatives; `substringExists` finds every stored window, on the
strings where its rolling hash agrees with the direct hash (`rolls`); and constructing a
filter from the buffer of another one gives the same filter. -/
structure BloomLib where
  B : Type
  /-- `BloomFilter(bitsPerElement, estimatedNumElements)` -/
  new : Nat → Nat → B
  /-- `BloomFilter(buffer, byteBufferSize)` -/
  ofBuffer : Bytes → B
  /-- `getBuffer()`/`getByteBufferSize()` -/
  buffer : B → Bytes
  /-- `add` -/
  add : B → Bytes → B
  /-- `exists` -/
  mem : B → Bytes → Bool
  /-- `substringExists(s, n)` -/
  substr : B → Bytes → Nat → Bool
  /-- strings on which the rolling hash is exact -/
  rolls : Bytes → Prop
  mem_add_self : ∀ b s, mem (add b s) s = true
  mem_add : ∀ b s t, mem b s = true → mem (add b t) s = true
  substr_of_mem : ∀ b s w, rolls s → w <:+: s → mem b w = true → substr b s w.length = true
  ofBuffer_buffer : ∀ b, ofBuffer (buffer b) = b
  buffer_ne_nil : ∀ b, buffer b ≠ []

/-- `HashSet<T>` of the hashset-cpp library: `count` buckets, each a chain in insertion
order. -/
structure HSet (T : Type) where
  count : Nat
  bucket : Nat → List T

namespace HSet

/-- `HashSet<T>(count, false)` -/
def new {T} (count : Nat) : HSet T := ⟨count, fun _ => []⟩

/-- `Add`: an element equal to one already present is dropped (the `Update` method of
the element types used with `multi_set = false` does nothing: filter.h:123,
no_fingerprint_domain.h:26). -/
def add {T} (eq : T → T → Bool) (hash : T → Nat) (s : HSet T) (x : T) : HSet T :=
  { s with bucket := fun i =>
      if i = hash x % s.count then
        if (s.bucket i).any (eq · x) then s.bucket i else s.bucket i ++ [x]
      else s.bucket i }

/-- `Find` of an element with hash `h`, equality test `p`. -/
def find {T} (s : HSet T) (h : Nat) (p : T → Bool) : Option T :=
  (s.bucket (h % s.count)).find? p

end HSet

/-- The parts of the program the model is parametric in. -/
structure Env where
  /-- bloom filters over fingerprints (default hash functions) -/
  fp : BloomLib
  /-- the bloom filter over byte pairs of the input (hash function `hashFn2Byte`,
  ad_block_client.cc:791-795, 1905-1911) -/
  pair : BloomLib
  /-- `HashFn(19)`, the hash of the elements of the hash sets (filter.cc:21) -/
  hash : Bytes → Nat
  /-- bad_fingerprints.h `badFingerprints` -/
  bad : List Bytes

/-- filter.h:151-171 `Filter::operator==`: only the hosts are compared; a null host
compares like an empty one. -/
def filterEq (a b : Filter) : Bool := a.host.getD [] == b.host.getD []

/-- filter.cc:692-700 `Filter::hash` -/
def filterHash (E : Env) (f : Filter) : Nat :=
  match f.host, f.data with
  | some h, _ => E.hash h
  | none, none => 0
  | none, some d => E.hash (d.take (f.dataLen.getD 0))

end AdBlock
