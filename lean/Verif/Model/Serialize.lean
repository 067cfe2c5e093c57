import Verif.Model.Client
/-
Serialization: `serializeFilters`, `deserializeFilters`, `AdBlockClient::serialize` and
`deserialize` (ad_block_client.cc:1488-1891), `Filter::Serialize`/`Deserialize`
(filter.cc:702-819), `NoFingerprintDomain::Serialize`/`Deserialize`
(no_fingerprint_domain.cc), and the contract of `HashSet::Serialize`/`Deserialize`.

Buffers being written are lists of bytes of fixed length; writing outside of them is
`UB.oobWrite`.  All sizes are natural numbers: the overflow of `int` sizes of 2 GB and more
is not modelled, except in the two `Deserialize` methods, where the addition wraps around
for small buffers as well.
-/
namespace AdBlock

/-! ### printf and scanf of hexadecimal numbers -/

/-- A digit written by `%x`. -/
def hexDigit (d : Nat) : Byte := if d < 10 then UInt8.ofNat (48 + d) else UInt8.ofNat (87 + d)

def hexDigits : (fuel : Nat) → Nat → Bytes
  | 0, _ => []
  | k + 1, n => if n < 16 then [hexDigit n] else hexDigits k (n / 16) ++ [hexDigit (n % 16)]

/-- The output of `%x` for a 32 bit number. -/
def fmtX (v : BitVec 32) : Bytes := hexDigits 8 v.toNat

/-- The output of `%x,%x,...,%x`. -/
def fmtXs : List (BitVec 32) → Bytes
  | [] => []
  | [v] => fmtX v
  | v :: vs => fmtX v ++ ch%',' :: fmtXs vs

/-- Value of a hexadecimal digit. -/
def hexVal (c : Byte) : Option Nat :=
  let n := c.toNat
  if 48 ≤ n ∧ n ≤ 57 then some (n - 48)
  else if 97 ≤ n ∧ n ≤ 102 then some (n - 87)
  else if 65 ≤ n ∧ n ≤ 70 then some (n - 55)
  else none

/-- `isspace` -/
def isSpace (c : Byte) : Bool := c == 32 || (9 ≤ c.toNat && c.toNat ≤ 13)

def scanDigits (acc : Nat) : Bytes → Nat × Bytes
  | [] => (acc, [])
  | c :: s => match hexVal c with
    | some d => scanDigits (16 * acc + d) s
    | none => (acc, c :: s)

/-- The optional sign of a number. -/
def scanSign : Bytes → Bool × Bytes
  | [] => (false, [])
  | c :: s => if c = ch%'-' then (true, s) else if c = ch%'+' then (false, s) else (false, c :: s)

/-- The optional `0x` of a hexadecimal number. -/
def scanPrefix : Bytes → Bytes
  | a :: b :: s => if a = ch%'0' ∧ (b = ch%'x' ∨ b = ch%'X') then s else a :: b :: s
  | s => s

/-- One `%x` of `sscanf` into a 32 bit variable: the value and the rest of the input, `none`
for a matching failure.  The number is read as an `unsigned long` of 64 bits, with saturation,
and truncated. -/
def scanX (s : Bytes) : Option (BitVec 32 × Bytes) :=
  let (neg, s) := scanSign (s.dropWhile isSpace)
  let s := scanPrefix s
  if (s.head?.bind hexVal).isSome then
    let (v, rest) := scanDigits 0 s
    some (if v ≥ 2 ^ 64 then BitVec.allOnes 32 else if neg then -BitVec.ofNat 32 v else BitVec.ofNat 32 v, rest)
  else none

/-- `sscanf(s, "%x,%x,...,%x", ...)`: the variables afterwards, given their values before.
After a failure, the remaining variables are not written. -/
def scanXs : List (BitVec 32) → Bytes → List (BitVec 32)
  | [], _ => []
  | d :: ds, s =>
    match scanX s with
    | none => d :: ds
    | some (v, rest) => v :: if rest.head? = some ch%',' then scanXs ds (rest.drop 1) else ds

/-! ### Writing to a buffer -/

/-- `memcpy(buffer + off, s, n)`, `n` being the length of `s`. -/
def writeAt (buf : Bytes) (off : Nat) (s : Bytes) : Res Bytes :=
  if off + s.length ≤ buf.length then .ok (buf.take off ++ s ++ buf.drop (off + s.length))
  else .ub .oobWrite

/-- `snprintf(buffer + off, avail, "%s", s)` -/
def snprintfAt (buf : Bytes) (off avail : Nat) (s : Bytes) : Res Bytes :=
  if avail = 0 then .ok buf else writeAt buf off (s.take (avail - 1) ++ [0])

/-- `if (buffer) memcpy(...)` -/
def putBytes (buf : Option Bytes) (off : Nat) (s : Bytes) : Res (Option Bytes) :=
  match buf with
  | none => .ok none
  | some b => some <$> writeAt b off s

/-- `if (buffer) snprintf(...)` -/
def putStr (buf : Option Bytes) (off avail : Nat) (s : Bytes) : Res (Option Bytes) :=
  match buf with
  | none => .ok none
  | some b => some <$> snprintfAt b off avail s

/-- The tag as it is written: `~#tag,`. -/
def tagSection (tag : Bytes) : Bytes := bs%"~#" ++ tag ++ bs%","

/-! ### Arrays of filters (ad_block_client.cc:1488-1542, 1727-1780) -/

/-- ad_block_client.cc:1523-1528 and 1531-1536: a string, which may be null, written at
`buffer + size`, `base` being the position of `buffer` in the whole buffer; and the new
`size`, the terminator not counted. -/
def putField (buf : Option Bytes) (base avail size : Nat) (s : Option Bytes) : Res (Option Bytes × Nat) :=
  match s with
  | none => pure (buf, size)
  | some s => do
    let buf ← putStr buf (base + size) avail s
    pure (buf, size + s.length)

/-- ad_block_client.cc:1513-1521 and filter.cc:729-737: the tag, if there is one. -/
def putTag (buf : Option Bytes) (base size : Nat) (tag : Bytes) : Res (Option Bytes × Nat) :=
  if tag.length > 0 then do
    let buf ← putBytes buf (base + size) (tagSection tag)
    pure (buf, size + (tag.length + 3))
  else pure (buf, size)

/-- The contents of the string `data` points to, if it is not null. -/
def dataString (data : Option Ptr) : Res (Option Bytes) :=
  match data with
  | none => pure none
  | some d => some <$> cstrAt d

/-- ad_block_client.cc:1495-1539, one turn of the loop of `serializeFilters`: `base` is the
position of `buffer` in the whole buffer, `size` the variable `bufferSize`. -/
def serializeFilter (buf : Option Bytes) (base avail size : Nat) (f : Filter) :
    Res (Option Bytes × Nat) := do
  let sz := (fmtXs [f.filterType, f.filterOption, f.antiFilterOption]).take 255
  let buf ← putStr buf (base + size) avail sz
  let text ← dataString f.data
  let (buf, size) ← putField buf base avail (size + sz.length + 1) text
  let (buf, size) ← putTag buf base (size + 1) f.tag
  let (buf, size) ← putField buf base avail size f.domainList
  let (buf, size) ← putField buf base avail (size + 1) f.host
  pure (buf, size + 1)

/-- ad_block_client.cc:1490-1542 `serializeFilters(buffer + base, avail, f, numFilters)`; a null
buffer is `none`. -/
def serializeFilters (buf : Option Bytes) (base avail : Nat) :
    List Filter → (size : Nat) → Res (Option Bytes × Nat)
  | [], size => pure (buf, size)
  | f :: fs, size => do
    let (buf, size) ← serializeFilter buf base avail size f
    serializeFilters buf base avail fs size

/-- A string of the buffer, null if it is empty, and the pointer behind it
(ad_block_client.cc:1739-1745 and similarly below). -/
def takeString (p : Ptr) : Res (Option Bytes × Ptr) := do
  let s ← cstrAt p
  pure (if s = [] then none else some s, p.drop (s.length + 1))

/-- ad_block_client.cc:1747-1760 and filter.cc:785-796: the tag, and the pointer to the list
of domains. -/
def takeTag (p : Ptr) : Res (Bytes × Ptr) := do
  if (← rd p 0) = ch%'~' then
    if (← rd p 1) = ch%'#' then
      let s ← cstrAt (p.drop 2)
      let tag := s.takeWhile (· != ch%',')
      pure (tag, if ch%',' ∈ s then p.drop (2 + (tag.length + 1)) else p.drop 2)
    else pure ([], p)
  else pure ([], p)

/-- ad_block_client.cc:1732-1777, one turn of the loop of `deserializeFilters` on a default
constructed filter: the filter and `buffer + pos` afterwards. -/
def deserializeFilter (p : Ptr) : Res (Filter × Ptr) := do
  let sz ← cstrAt p
  let v := scanXs [0, 0, 0] sz
  let p := p.drop (sz.length + 1)
  let (data, q) ← takeString p
  let (tag, q) ← takeTag q
  let (domainList, q) ← takeString q
  let (host, q) ← takeString q
  pure ({
    borrowed := true
    filterType := v.getD 0 0
    filterOption := v.getD 1 0
    antiFilterOption := v.getD 2 0
    data := data.map fun _ => p
    tag := tag
    domainList := domainList
    host := host }, q)

/-- ad_block_client.cc:1729-1780 `deserializeFilters`: the filters and `buffer + pos`
afterwards. -/
def deserializeFilters : (numFilters : Nat) → Ptr → Res (List Filter × Ptr)
  | 0, p => pure ([], p)
  | n + 1, p => do
    let (f, p) ← deserializeFilter p
    let (fs, p) ← deserializeFilters n p
    pure (f :: fs, p)

/-! ### Entries of the hash sets -/

/-- filter.cc:713: `memcpy(buffer + totalSize, data, dataLen)` reads `dataLen` bytes of
`data`.  (A `dataLen` of -1 would be a copy of 2^64-1 bytes; the copy constructor sets it
whenever there is data.) -/
def Filter.rawData (f : Filter) : Res Bytes :=
  match f.dataLen, f.data with
  | some n, some d => if n ≤ d.length then pure (d.take n) else .ub .oobRead
  | some 0, none => pure []
  | some _, none => .ub .nullDeref
  | none, _ => .ub .oobRead

/-- filter.cc:717-724 and 738-744: a string, which may be null, copied to `buffer + size` with
its terminator; and the new `size`, the terminator not counted. -/
def putTerminated (buf : Option Bytes) (base size : Nat) (s : Option Bytes) : Res (Option Bytes × Nat) :=
  match s with
  | none => pure (buf, size)
  | some s => do
    let buf ← putBytes buf (base + size) (s ++ [0])
    pure (buf, size + s.length)

/-- filter.cc:712-714: the data; a null buffer is not written to. -/
def putData (buf : Option Bytes) (off : Nat) (f : Filter) : Res (Option Bytes) :=
  match buf with
  | none => pure none
  | some b => do
    let d ← f.rawData
    some <$> writeAt b off d

/-- filter.cc:702-748 `Filter::Serialize(buffer + base)`: the buffer and the returned size.
The dry run with a null buffer does not read `data`, but needs its length. -/
def Filter.serialize (f : Filter) (buf : Option Bytes) (base : Nat) : Res (Option Bytes × Nat) :=
  match f.dataLen with
  | none => .ub .oobRead
  | some len => do
    let sz := (fmtXs [BitVec.ofNat 32 len, f.filterType, f.filterOption, f.antiFilterOption]).take 63 ++ [0]
    let buf ← putBytes buf base sz
    let buf ← putData buf (base + sz.length) f
    let (buf, size) ← putTerminated buf base (sz.length + len) f.host
    let (buf, size) ← putTag buf base (size + 1) f.tag
    let (buf, size) ← putTerminated buf base size f.domainList
    pure (buf, size + 1)

/-- The addition of `uint32_t` numbers. -/
def add32 (a b : Nat) : Nat := (a + b) % 2 ^ 32

/-- filter.cc:750-758 `hasNewlineBefore`: is there a NUL among the first `size` bytes? -/
def hasNewlineBefore : Ptr → (size : Nat) → Res Bool
  | _, 0 => pure false
  | [], _ + 1 => .ub .oobRead
  | c :: p, n + 1 => if c = 0 then pure true else hasNewlineBefore p n

/-- filter.cc:760-819 `Filter::Deserialize(buffer, bufferSize)` of a default constructed
filter: the filter and the number of bytes consumed; `none` if 0 is returned.  A negative
length is represented like -1. -/
def Filter.deserialize (p : Ptr) (size : Nat) : Res (Option (Filter × Nat)) := do
  if !(← hasNewlineBefore p size) then pure none
  else
    let sz ← cstrAt p
    let v := scanXs [0, 0, 0, 0] sz
    let len := (v.getD 0 0).toNat
    let consumed := sz.length + 1
    if add32 consumed len ≥ size then pure none
    else
      let data := p.drop consumed
      let consumed := add32 consumed len
      let q := p.drop consumed
      let (host, q) ← takeString q
      let (tag, q) ← takeTag q
      let (domainList, q) ← takeString q
      pure (some ({
        borrowed := true
        filterType := v.getD 1 0
        filterOption := v.getD 2 0
        antiFilterOption := v.getD 3 0
        data := some data
        dataLen := if len < 2 ^ 31 then some len else none
        host := host
        tag := tag
        domainList := domainList }, p.length - q.length))

/-- no_fingerprint_domain.cc:61-78 `NoFingerprintDomain::Serialize(buffer + off)`; the
terminator of the data is counted but not written. -/
def serializeDomain (d : Bytes) (buf : Option Bytes) (off : Nat) : Res (Option Bytes × Nat) := do
  let sz := (fmtX (BitVec.ofNat 32 d.length) ++ bs%"x").take 63 ++ [0]
  let buf ← putBytes buf off sz
  let size := sz.length
  let buf ← putBytes buf (off + size) d
  pure (buf, size + d.length + 1)

/-- no_fingerprint_domain.cc:80-93 `NoFingerprintDomain::Deserialize(buffer, bufferSize)`: the
entry and the number of bytes consumed; `none` if 0 is returned.  (An accepted negative
length, see `add32`, is represented by the whole rest of the buffer: in both cases the entry
is not equal to any domain looked up.) -/
def deserializeDomain (p : Ptr) (size : Nat) : Res (Option (Bytes × Nat)) := do
  let sz ← cstrAt p
  let len := ((scanXs [0] sz).getD 0 0).toNat
  let consumed := sz.length + 1
  if add32 consumed len ≥ size then pure none
  else pure (some ((p.drop consumed).take len, add32 (add32 consumed len) 1))

/-! ### Hash sets

The library hashset-cpp is not part of /repo; this is the format it is assumed to use, with
items written by `ser` and read by `de`. -/

/-- The items of a bucket, written one after the other. -/
def serializeItems {T} (ser : T → Option Bytes → Nat → Res (Option Bytes × Nat)) :
    List T → Option Bytes → Nat → Res (Option Bytes × Nat)
  | [], buf, off => pure (buf, off)
  | x :: xs, buf, off => do
    let (buf, n) ← ser x buf off
    serializeItems ser xs buf (off + n)

/-- The buckets, each ended by a NUL. -/
def serializeBuckets {T} (ser : T → Option Bytes → Nat → Res (Option Bytes × Nat)) :
    List (List T) → Option Bytes → Nat → Res (Option Bytes × Nat)
  | [], buf, off => pure (buf, off)
  | b :: bs, buf, off => do
    let (buf, off) ← serializeItems ser b buf off
    let buf ← putBytes buf off [0]
    serializeBuckets ser bs buf (off + 1)

/-- The buckets of a hash set, in order. -/
def HSet.buckets {T} (s : HSet T) : List (List T) := (List.range s.count).map s.bucket

/-- One pass over a hash set. -/
def HSet.pass {T} (ser : T → Option Bytes → Nat → Res (Option Bytes × Nat)) (s : HSet T)
    (buf : Option Bytes) : Res (Option Bytes × Nat) := do
  let sz := fmtX (BitVec.ofNat 32 s.count) ++ [0]
  let buf ← putBytes buf 0 sz
  serializeBuckets ser s.buckets buf sz.length

/-- `HashSet::Serialize`: a dry run gives the size, a second pass fills a zeroed buffer. -/
def HSet.serialize {T} (ser : T → Option Bytes → Nat → Res (Option Bytes × Nat)) (s : HSet T) :
    Res Bytes := do
  let (_, n) ← s.pass ser none
  let (buf, _) ← s.pass ser (some (List.replicate n 0))
  pure (buf.getD [])

/-- The items of a bucket, up to the NUL; `none` if an item is rejected or the size is
exceeded. -/
def deserializeItems {T} (de : Ptr → Nat → Res (Option (T × Nat))) :
    (fuel : Nat) → Ptr → (size : Nat) → Res (Option (List T × Ptr × Nat))
  | 0, _, _ => .ub .fuel
  | k + 1, p, size => do
    if (← rd p 0) = 0 then pure (some ([], p, size))
    else if size = 0 then pure none
    else match ← de p size with
      | none => pure none
      | some (x, n) =>
        if n ≥ size then pure none
        else match ← deserializeItems de k (p.drop n) (size - n) with
          | none => pure none
          | some (xs, p, size) => pure (some (x :: xs, p, size))

def deserializeBuckets {T} (de : Ptr → Nat → Res (Option (T × Nat))) :
    (count : Nat) → Ptr → (size : Nat) → Res (Option (List (List T)))
  | 0, _, _ => pure (some [])
  | n + 1, p, size => do
    match ← deserializeItems de (size + 1) p size with
    | none => pure none
    | some (b, p, size) =>
      match ← deserializeBuckets de n (p.drop 1) (size - 1) with
      | none => pure none
      | some bs => pure (some (b :: bs))

/-- `HashSet::Deserialize(buffer, buffer_size)` into a new set; `none` if false is returned. -/
def HSet.deserialize {T} (de : Ptr → Nat → Res (Option (T × Nat))) (p : Ptr) (size : Nat) :
    Res (Option (HSet T)) := do
  if !(← hasNewlineBefore p size) then pure none
  else
    let sz ← cstrAt p
    let count := ((scanXs [0] sz).getD 0 0).toNat
    let pos := sz.length + 1
    if pos ≥ size then pure none
    else
      match ← deserializeBuckets de count (p.drop pos) (size - pos) with
      | none => pure none
      | some bs => pure (some ⟨count, fun i => bs.getD i []⟩)

/-! ### The client (ad_block_client.cc:1544-1725, 1782-1891) -/

/-- The arrays in the order in which they are written. -/
def storedLists : List ListId :=
  [.filters, .exception, .cosmetic, .html, .noFp, .noFpException, .noFpDomain, .noFpAntiDomain,
    .noFpDomainException, .noFpAntiDomainException]

/-- The domain hash sets in the order in which they are written. -/
def storedSets : List DomId := [.domain, .antiDomain, .domainException, .antiDomainException]

/-- ad_block_client.cc:1549-1551: the part of an array which is written. -/
def Client.storedList {E} (c : Client E) (ignoreCosmetic ignoreHtml : Bool) : ListId → List Filter
  | .cosmetic => if ignoreCosmetic then [] else c.lists .cosmetic
  | .html => if ignoreHtml then [] else c.lists .html
  | id => c.lists id

/-- `*totalSize += serializeFilters(nullptr, 0, ...) + ...` (ad_block_client.cc:1618-1634) -/
def dryLists : List (List Filter) → Res Nat
  | [] => pure 0
  | l :: ls => do
    let (_, n) ← serializeFilters none 0 0 l 0
    let m ← dryLists ls
    pure (n + m)

/-- `pos += serializeFilters(buffer + pos, *totalSize - pos, ...)` for each array
(ad_block_client.cc:1654-1676) -/
def writeLists (total : Nat) : List (List Filter) → Option Bytes → Nat → Res (Option Bytes × Nat)
  | [], buf, pos => pure (buf, pos)
  | l :: ls, buf, pos => do
    let (buf, n) ← serializeFilters buf pos (total - pos) l 0
    writeLists total ls buf (pos + n)

/-- The final copies of `serialize` (ad_block_client.cc:1678-1722) -/
def writeSections : List Bytes → Option Bytes → Nat → Res (Option Bytes × Nat)
  | [], buf, pos => pure (buf, pos)
  | s :: ss, buf, pos => do
    let buf ← putBytes buf pos s
    writeSections ss buf (pos + s.length)

/-- The serialized form of a hash set, empty for a null pointer. -/
def sectionOf {T} (ser : T → Option Bytes → Nat → Res (Option Bytes × Nat)) (s : Option (HSet T)) :
    Res Bytes :=
  match s with
  | none => pure []
  | some s => s.serialize ser

/-- The bytes of a bloom filter, empty for a null pointer. -/
def bloomSection {E : Env} (b : Option E.fp.B) : Bytes :=
  match b with
  | none => []
  | some b => E.fp.buffer b

/-- The result of `serialize`. -/
structure Serialized where
  /-- the returned buffer -/
  buffer : Bytes
  /-- `*totalSize` -/
  totalSize : Nat
  /-- the final value of `pos` -/
  written : Nat
deriving DecidableEq, Repr

/-- ad_block_client.cc:1545-1725 `serialize` -/
def Client.serialize {E} (c : Client E) (ignoreCosmetic ignoreHtml : Bool) : Res Serialized := do
  let host ← sectionOf Filter.serialize c.hostSet
  let hostException ← sectionOf Filter.serialize c.hostExceptionSet
  let domain ← sectionOf serializeDomain (c.domSets .domain)
  let antiDomain ← sectionOf serializeDomain (c.domSets .antiDomain)
  let domainException ← sectionOf serializeDomain (c.domSets .domainException)
  let antiDomainException ← sectionOf serializeDomain (c.domSets .antiDomainException)
  let sections := [bloomSection c.bloom, bloomSection c.exceptionBloom, host, hostException, domain, antiDomain,
    domainException, antiDomainException]
  let lists := storedLists.map (c.storedList ignoreCosmetic ignoreHtml)
  let sz := (fmtXs ((lists.map List.length ++ [c.numHostAnchoredFilters, c.numHostAnchoredExceptionFilters] ++
    sections.map List.length).map (BitVec.ofNat 32))).take 511
  let n ← dryLists lists
  let total := 1 + sz.length + n + (sections.map List.length).sum
  let buf ← putStr (some (List.replicate total 0)) 0 total sz
  let (buf, pos) ← writeLists total lists buf (sz.length + 1)
  let (buf, pos) ← writeSections sections buf pos
  pure ⟨buf.getD [], total, pos⟩

/-- A count or size read from the header: a negative one is not followed any further. -/
def headerNat (v : BitVec 32) : Res Nat := if v.toNat < 2 ^ 31 then pure v.toNat else .ub .badSize

def headerNats : List (BitVec 32) → Res (List Nat)
  | [] => pure []
  | v :: vs => do
    let n ← headerNat v
    let ns ← headerNats vs
    pure (n :: ns)

/-- `pos += deserializeFilters(buffer + pos, ...)` for each array (ad_block_client.cc:1825-1847) -/
def readLists : List Nat → Ptr → Res (List (List Filter) × Ptr)
  | [], p => pure ([], p)
  | n :: ns, p => do
    let (l, p) ← deserializeFilters n p
    let (ls, p) ← readLists ns p
    pure (l :: ls, p)

/-- ad_block_client.cc:1050-1058 `initBloomFilter` with a null `*pp` -/
def initBloomFilter (E : Env) (p : Ptr) (len : Nat) : Res (Option E.fp.B) :=
  if len = 0 then pure none
  else if len ≤ p.length then pure (some (E.fp.ofBuffer (p.take len)))
  else .ub .oobRead

/-- ad_block_client.cc:1060-1072 `initHashSet` with a null `*pp`; the outer `none` if it
returns false. -/
def initHashSet {T} (de : Ptr → Nat → Res (Option (T × Nat))) (p : Ptr) (len : Nat) :
    Res (Option (Option (HSet T))) :=
  if len = 0 then pure (some none)
  else do
    match ← HSet.deserialize de p len with
    | none => pure none
    | some s => pure (some (some s))

/-- The four domain hash sets (ad_block_client.cc:1866-1888). -/
def readSets : List Nat → Ptr → Res (Option (List (Option (HSet Bytes))))
  | [], _ => pure (some [])
  | n :: ns, p => do
    match ← initHashSet deserializeDomain p n with
    | none => pure none
    | some s =>
      match ← readSets ns (p.drop n) with
      | none => pure none
      | some ss => pure (some (s :: ss))

/-- Position of an array in `storedLists`. -/
def ListId.index : ListId → Nat
  | .filters => 0 | .exception => 1 | .cosmetic => 2 | .html => 3 | .noFp => 4 | .noFpException => 5
  | .noFpDomain => 6 | .noFpAntiDomain => 7 | .noFpDomainException => 8 | .noFpAntiDomainException => 9

/-- Position of a set in `storedSets`. -/
def DomId.index : DomId → Nat
  | .domain => 0 | .antiDomain => 1 | .domainException => 2 | .antiDomainException => 3

/-- ad_block_client.cc:1782-1891 `deserialize`: the client afterwards; `none` if false is
returned (the client is then filled in part: see Model/Refused.lean).  The variables
written by `sscanf` are 0 before, the counters because of `clear`. -/
def Client.deserialize {E} (c : Client E) (buffer : Ptr) : Res (Option (Client E)) := do
  let c := c.clear
  let sz ← cstrAt buffer
  let v ← headerNats (scanXs (List.replicate 20 0) sz)
  let (lists, p) ← readLists (v.take 10) (buffer.drop (sz.length + 1))
  let bloom ← initBloomFilter E p (v.getD 12 0)
  let p := p.drop (v.getD 12 0)
  let exceptionBloom ← initBloomFilter E p (v.getD 13 0)
  let p := p.drop (v.getD 13 0)
  match ← initHashSet Filter.deserialize p (v.getD 14 0) with
  | none => pure none
  | some hostSet =>
    let p := p.drop (v.getD 14 0)
    match ← initHashSet Filter.deserialize p (v.getD 15 0) with
    | none => pure none
    | some hostExceptionSet =>
      match ← readSets (v.drop 16) (p.drop (v.getD 15 0)) with
      | none => pure none
      | some sets =>
        pure (some { c with
          lists := fun id => lists.getD id.index []
          numHostAnchoredFilters := v.getD 10 0
          numHostAnchoredExceptionFilters := v.getD 11 0
          bloom := bloom
          exceptionBloom := exceptionBloom
          hostSet := hostSet
          hostExceptionSet := hostExceptionSet
          domSets := fun d => sets.getD d.index none
          deserializedBuffer := some buffer })

end AdBlock
