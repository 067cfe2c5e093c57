import Verif.Model.ParseFilter
import Verif.Model.Lib
/-
The class `AdBlockClient`: state, parsing of filter lists, queries, tags.
Models ad_block_client.cc:66-99, 473-946, 954-1048, 1082-1486, 1893-1903.
-/
namespace AdBlock

/-- The ten arrays of filters of `AdBlockClient` (ad_block_client.h). -/
inductive ListId where
  | filters | cosmetic | html | exception
  | noFp | noFpException
  | noFpDomain | noFpAntiDomain | noFpDomainException | noFpAntiDomainException
deriving DecidableEq, Repr

/-- The four hash sets of domains of `AdBlockClient`. -/
inductive DomId where
  | domain | antiDomain | domainException | antiDomainException
deriving DecidableEq, Repr

/-- The counters of ad_block_client.h reset at ad_block_client.cc:608-613. -/
structure Stats where
  numFalsePositives : Nat := 0
  numExceptionFalsePositives : Nat := 0
  numBloomFilterSaves : Nat := 0
  numExceptionBloomFilterSaves : Nat := 0
  numHashSetSaves : Nat := 0
  numExceptionHashSetSaves : Nat := 0
deriving DecidableEq, Repr

/-- State of an `AdBlockClient`.  The `num...Filters` counters of the ten arrays are the
lengths of the lists (the arrays are only ever replaced together with their counter:
ad_block_client.cc:1223-1246, 1353-1381 and 1794-1823). -/
structure Client (E : Env) where
  lists : ListId → List Filter := fun _ => []
  numHostAnchoredFilters : Nat := 0
  numHostAnchoredExceptionFilters : Nat := 0
  bloom : Option E.fp.B := none
  exceptionBloom : Option E.fp.B := none
  hostSet : Option (HSet Filter) := none
  hostExceptionSet : Option (HSet Filter) := none
  domSets : DomId → Option (HSet Bytes) := fun _ => none
  /-- `badFingerprintsHashSet`, as the list of its elements -/
  badFps : Option (List Bytes) := none
  stats : Stats := {}
  /-- `tags`, a `std::set<std::string>`, as a list without duplicates -/
  tags : List Bytes := []
  deserializedBuffer : Option Bytes := none

/-- ad_block_client.cc:473-512, the constructor -/
def Client.fresh (E : Env) : Client E := {}

/-- ad_block_client.cc:518-614 `clear` (`tags` and `deserializedBuffer` are not reset). -/
def Client.clear {E : Env} (c : Client E) : Client E :=
  { tags := c.tags, deserializedBuffer := c.deserializedBuffer }

/-! ### Tags (ad_block_client.cc:1471-1486) -/

/-- ad_block_client.cc:1484-1486 -/
def Client.tagExists {E} (c : Client E) (tag : Bytes) : Bool := c.tags.contains tag

/-- ad_block_client.cc:1471-1475 -/
def Client.addTag {E} (c : Client E) (tag : Bytes) : Client E :=
  if c.tagExists tag then c else { c with tags := c.tags ++ [tag] }

/-- ad_block_client.cc:1477-1482 -/
def Client.removeTag {E} (c : Client E) (tag : Bytes) : Client E :=
  { c with tags := c.tags.erase tag }

/-! ### Queries -/

/-- `filter->tagLen == 0 || tagExists(std::string(filter->tag, filter->tagLen))` -/
def tagOk (tags : List Bytes) (f : Filter) : Bool := f.tag == [] || tags.contains f.tag

/-- ad_block_client.cc:616-642 `hasMatchingFilters`, with `m` the call of
`filter->matches`: the filter it reports, `none` when it returns false. -/
def hasMatchingFilters (tags : List Bytes) (m : Filter → Res Bool) :
    List Filter → Res (Option Filter)
  | [] => pure none
  | f :: fs => do
    if (← m f) && tagOk tags f then pure (some f) else hasMatchingFilters tags m fs

/-- ad_block_client.cc:675-682 and 707-714 "Skip past the TLD": `start - host` after the
loop, from `start - host = n`. -/
def skipTld (host : Bytes) : Nat → Nat
  | 0 => 0
  | n + 1 => if host.getD n 0 == ch%'.' then n else skipTld host n

/-- ad_block_client.cc:683-693 and 716-737: the strings looked up, in order, from
`start - host = n` (the last lookup is at `start == host`). -/
def lookupsFrom (host : Bytes) : Nat → List Bytes
  | 0 => [host]
  | n + 1 =>
    if host.getD n 0 == ch%'.' then host.drop (n + 1) :: lookupsFrom host n
    else lookupsFrom host n

/-- The strings looked up for a host in `isNoFingerprintDomainHashSetMiss` and
`isHostAnchoredHashSetMiss`. -/
def hostLookups (host : Bytes) : List Bytes := lookupsFrom host (skipTld host host.length)

/-- ad_block_client.cc:670-694 `isNoFingerprintDomainHashSetMiss`.  For a null host
(`contextDomain` not given) the only lookup is of `NoFingerprintDomain(nullptr, 0)`, whose
hash is 0 (no_fingerprint_domain.cc:54-59). -/
def isNoFingerprintDomainHashSetMiss (E : Env) (set : Option (HSet Bytes))
    (host : Option Bytes) : Bool :=
  match set with
  | none => false
  | some s =>
    match host with
    | none => (s.find 0 (· == [])).isNone
    | some h => (hostLookups h).all fun d => (s.find (E.hash d) (· == d)).isNone

/-- ad_block_client.cc:716-751: the lookups of `isHostAnchoredHashSetMiss`: the first
filter found which matches and whose tag is enabled.  (The last lookup, 735-751, is
written differently in the code but has the same effect as the earlier ones.) -/
def hostSetLookup (E : Env) (tags : List Bytes) (m : Filter → Res Bool) (s : HSet Filter) :
    List Bytes → Res (Option Filter)
  | [] => pure none
  | d :: ds =>
    match s.find (E.hash d) (fun f => f.host.getD [] == d) with
    | none => hostSetLookup E tags m s ds
    | some f => do
      if (← m f) && tagOk tags f then pure (some f) else hostSetLookup E tags m s ds

/-- Result of `isHostAnchoredHashSetMiss`: is it a miss, and the filter stored through
`foundFilter` if any. -/
structure SetRes where
  miss : Bool
  found : Option Filter
deriving DecidableEq, Repr

/-- ad_block_client.cc:696-752 `isHostAnchoredHashSetMiss`; `m` is
`filter->matches(input, inputLen, contextOption, contextDomain)` (no bloom filter). -/
def isHostAnchoredHashSetMiss (E : Env) (tags : List Bytes) (m : Filter → Res Bool)
    (set : Option (HSet Filter)) (inputHost : Bytes) : Res SetRes :=
  match set with
  | none => pure ⟨false, none⟩
  | some s => do
    let r ← hostSetLookup E tags m s (hostLookups inputHost)
    pure ⟨r.isNone, r⟩

/-- ad_block_client.cc:776-786 and 969-979: "If neither first party nor third party was
specified, try to figure it out". -/
def resolveContext (url : Bytes) (contextOption : Mask) (contextDomain : Option Bytes) : Mask :=
  match contextDomain with
  | none => contextOption
  | some d =>
    if has contextOption (FOThirdParty ||| FONotThirdParty) then contextOption
    else if isThirdPartyHost d (getUrlHost url) then contextOption ||| FOThirdParty
    else contextOption ||| FONotThirdParty

/-- The windows `[s + i, s + i + n)` of a string, in order. -/
def windows (n : Nat) : Bytes → List Bytes
  | [] => []
  | c :: s => if n ≤ (c :: s).length then (c :: s).take n :: windows n s else []

/-- ad_block_client.cc:788-795: the bloom filter over the byte pairs of the input. -/
def inputBloom (E : Env) (url : Bytes) : E.pair.B :=
  (windows 2 url).foldl E.pair.add (E.pair.new 10 1024)

/-- ad_block_client.cc:644-668 `discoverMatchingPrefix` (a null `bloomFilter` would be
dereferenced at 652). -/
def discoverMatchingPrefix (E : Env) (badFps : List Bytes) (url : Bytes)
    (bloom : Option E.fp.B) : Res (List Bytes) :=
  match (windows kFingerprintSize url), bloom with
  | [], _ => pure badFps
  | _ :: _, none => .ub .nullDeref
  | ws, some b =>
    match ws.find? (E.fp.mem b) with
    | none => pure badFps
    | some w => pure (if badFps.contains w then badFps else badFps ++ [w])

/-- Everything a call of `matches` returns or changes. -/
structure Outcome (E : Env) where
  /-- the returned value: should the request be blocked? -/
  block : Bool
  /-- `*matchedFilter` -/
  filter : Option Filter
  /-- `*matchedExceptionFilter` -/
  exception : Option Filter
  stats : Stats
  badFps : Option (List Bytes)

section queries
variable {E : Env} (c : Client E)

/-- The call `filter->matches(...)` made from `hasMatchingFilters` during `matches`. -/
def Client.callMatch (E : Env) (url : Bytes) (ctx : Mask) (dom : Option Bytes) (f : Filter) :
    Res Bool :=
  f.matches url ctx dom (some (E.pair.mem (inputBloom E url)))

/-- The call `filter->matches(...)` made without an input bloom filter. -/
def Client.callMatchNoBloom (url : Bytes) (ctx : Mask) (dom : Option Bytes) (f : Filter) :
    Res Bool :=
  f.matches url ctx dom none

/-- ad_block_client.cc:797-821: the no fingerprint filters; the first list with a match
decides (`hasMatch || ...`). -/
def Client.noFpPhase (domSet antiSet : DomId) (dl al l : ListId) (url : Bytes) (ctx : Mask)
    (dom : Option Bytes) : Res (Option Filter) := do
  let m := Client.callMatch E url ctx dom
  let r1 ← if !isNoFingerprintDomainHashSetMiss E (c.domSets domSet) dom then
      hasMatchingFilters c.tags m (c.lists dl) else pure none
  let r2 ← if r1.isNone && isNoFingerprintDomainHashSetMiss E (c.domSets antiSet) dom then
      hasMatchingFilters c.tags m (c.lists al) else pure r1
  if r2.isNone then hasMatchingFilters c.tags m (c.lists l) else pure r2

/-- Result of the first half of `matches`. -/
inductive BlockRes (E : Env) where
  /-- early return false -/
  | done (o : Outcome E)
  /-- a blocking filter matched (`none`: `*matchedFilter` not set because the hash set
  is null) -/
  | hit (f : Option Filter)

/-- `bloomFilter && !bloomFilter->substringExists(input, kFingerprintSize)` -/
def bloomMiss (E : Env) (b : Option E.fp.B) (url : Bytes) : Bool :=
  match b with
  | none => false
  | some b => !E.fp.substr b url kFingerprintSize

/-- ad_block_client.cc:797-866: is there a blocking filter? -/
def Client.blockPhase (url : Bytes) (ctx : Mask) (dom : Option Bytes) : Res (BlockRes E) := do
  match ← c.noFpPhase .domain .antiDomain .noFpDomain .noFpAntiDomain .noFp url ctx dom with
  | some f => pure (.hit (some f))
  | none =>
    let bloomFilterMiss := bloomMiss E c.bloom url
    let r ← isHostAnchoredHashSetMiss E c.tags (Client.callMatchNoBloom url ctx dom) c.hostSet
      (getUrlHost url)
    if bloomFilterMiss && r.miss then
      pure (.done ⟨false, r.found, none,
        { c.stats with
          numBloomFilterSaves := c.stats.numBloomFilterSaves + 1
          numHashSetSaves := c.stats.numHashSetSaves + 1 }, c.badFps⟩)
    else if !r.miss then pure (.hit r.found)
    else
      -- here `!hasMatch && !bloomFilterMiss`
      match ← hasMatchingFilters c.tags (Client.callMatch E url ctx dom) (c.lists .filters) with
      | some f => pure (.hit (some f))
      | none =>
        let stats := { c.stats with numFalsePositives := c.stats.numFalsePositives + 1 }
        match c.badFps with
        | none => pure (.done ⟨false, none, none, stats, none⟩)
        | some bf =>
          let bf ← discoverMatchingPrefix E bf url c.bloom
          pure (.done ⟨false, none, none, stats, some bf⟩)

/-- ad_block_client.cc:868-945: is there an exception filter? `mf` is `*matchedFilter`. -/
def Client.exceptionPhase (mf : Option Filter) (url : Bytes) (ctx : Mask) (dom : Option Bytes) :
    Res (Outcome E) := do
  match ← c.noFpPhase .domainException .antiDomainException .noFpDomainException
      .noFpAntiDomainException .noFpException url ctx dom with
  | some f => pure ⟨false, mf, some f, c.stats, c.badFps⟩
  | none =>
    let bloomMissE := bloomMiss E c.exceptionBloom url
    let r ← isHostAnchoredHashSetMiss E c.tags (Client.callMatchNoBloom url ctx dom)
      c.hostExceptionSet (getUrlHost url)
    if bloomMissE && r.miss then
      pure ⟨true, mf, r.found,
        { c.stats with
          numExceptionBloomFilterSaves := c.stats.numExceptionBloomFilterSaves + 1
          numExceptionHashSetSaves := c.stats.numExceptionHashSetSaves + 1 }, c.badFps⟩
    else if !r.miss then
      pure ⟨false, mf, r.found,
        { c.stats with numExceptionHashSetSaves := c.stats.numExceptionHashSetSaves + 1 },
        c.badFps⟩
    else
      match ← hasMatchingFilters c.tags (Client.callMatch E url ctx dom) (c.lists .exception) with
      | some f => pure ⟨false, mf, some f, c.stats, c.badFps⟩
      | none =>
        let stats := { c.stats with
          numExceptionFalsePositives := c.stats.numExceptionFalsePositives + 1 }
        match c.badFps with
        | none => pure ⟨true, mf, none, stats, none⟩
        | some bf =>
          let bf ← discoverMatchingPrefix E bf url c.exceptionBloom
          pure ⟨true, mf, none, stats, some bf⟩

/-- ad_block_client.cc:754-946 `matches`: `url` is the contents of `input`. -/
def Client.query (url : Bytes) (contextOption : Mask) (contextDomain : Option Bytes) :
    Res (Outcome E) := do
  if !(← isBlockableProtocol (cstr url) url.length) then
    pure ⟨false, none, none, c.stats, c.badFps⟩
  else
    let ctx := resolveContext url contextOption contextDomain
    match ← c.blockPhase url ctx contextDomain with
    | .done o => pure o
    | .hit f => c.exceptionPhase f url ctx contextDomain

/-- `matches` seen as a transition of the client: the returned value and the new state. -/
def Client.matches (url : Bytes) (contextOption : Mask) (contextDomain : Option Bytes) :
    Res (Bool × Client E) := do
  let o ← c.query url contextOption contextDomain
  pure (o.block, { c with stats := o.stats, badFps := o.badFps })

/-- Result of `findMatchingFilters`. -/
structure Found where
  block : Bool
  filter : Option Filter
  exception : Option Filter
deriving DecidableEq, Repr

/-- `if (!*matchingFilter) hasMatchingFilters(list, ..., matchingFilter)` for a sequence of
arrays. -/
def firstInLists (tags : List Bytes) (m : Filter → Res Bool) :
    List (List Filter) → Res (Option Filter)
  | [] => pure none
  | l :: ls => do
    match ← hasMatchingFilters tags m l with
    | some f => pure (some f)
    | none => firstInLists tags m ls

/-- ad_block_client.cc:954-1048 `findMatchingFilters` -/
def Client.findMatchingFilters (url : Bytes) (contextOption : Mask)
    (contextDomain : Option Bytes) : Res Found := do
  let ctx := resolveContext url contextOption contextDomain
  let m := Client.callMatchNoBloom url ctx contextDomain
  let r1 ← firstInLists c.tags m
    [c.lists .noFp, c.lists .noFpDomain, c.lists .noFpAntiDomain, c.lists .filters]
  let mf ← match r1 with
    | some f => pure (some f)
    | none => SetRes.found <$> isHostAnchoredHashSetMiss E c.tags m c.hostSet (getUrlHost url)
  match mf with
  | none => pure ⟨false, none, none⟩
  | some f =>
    let e1 ← firstInLists c.tags m
      [c.lists .noFpException, c.lists .noFpDomainException, c.lists .noFpAntiDomainException]
    let e2 ← match e1 with
      | some e => pure (some e)
      | none =>
        SetRes.found <$> isHostAnchoredHashSetMiss E c.tags m c.hostExceptionSet (getUrlHost url)
    let e3 ← match e2 with
      | some e => pure (some e)
      | none => hasMatchingFilters c.tags m (c.lists .exception)
    pure ⟨e3.isNone, some f, e3⟩

end queries

/-! ### Parsing of a filter list (ad_block_client.cc:1082-1469) -/

/-- The lines visited by the loops of ad_block_client.cc:1142-1197 and 1386-1461: each
with its terminator (CR, LF, or the final NUL).  `cur` is `[lineStart, p)`. -/
def splitLinesLoop (cur : Bytes) : Bytes → List (Bytes × Byte)
  | [] => [(cur, 0)]
  | c :: p =>
    if isEndOfLine c then (cur, c) :: splitLinesLoop [] p
    else splitLinesLoop (cur ++ [c]) p

def splitLines (input : Bytes) : List (Bytes × Byte) := splitLinesLoop [] input

/-- Where the `switch` of ad_block_client.cc:1146-1188 (and 1394-1452) files a rule. -/
inductive Class where
  | drop
  | hostAnchored
  | hostAnchoredException
  | list (id : ListId)
deriving DecidableEq, Repr

/-- ad_block_client.cc:1146-1188 -/
def classify (bad : List Bytes) (f : Filter) : Res Class :=
  if f.hasUnsupportedOptions then pure .drop
  else
    let lt := f.filterType &&& FTListTypesMask
    if lt = FTException then
      if has f.filterType FTHostOnly then pure .hostAnchoredException
      else do
        if (← getFingerprint bad f).isSome then pure (.list .exception)
        else if f.isDomainOnlyFilter then pure (.list .noFpDomainException)
        else if f.isAntiDomainOnlyFilter then pure (.list .noFpAntiDomainException)
        else pure (.list .noFpException)
    else if lt = FTElementHiding then pure (.list .cosmetic)
    else if lt = FTElementHidingException then pure (.list .cosmetic)
    else if lt = FTHTMLFiltering then pure (.list .html)
    else if lt = FTEmpty then pure .drop
    else if lt = FTComment then pure .drop
    else
      if has f.filterType FTHostOnly then pure .hostAnchored
      else do
        if (← getFingerprint bad f).isSome then pure (.list .filters)
        else if f.isDomainOnlyFilter then pure (.list .noFpDomain)
        else if f.isAntiDomainOnlyFilter then pure (.list .noFpAntiDomain)
        else pure (.list .noFp)

/-- The `newNum...` counters of the first pass (ad_block_client.cc:1122-1133). -/
structure Counts where
  lists : ListId → Nat := fun _ => 0
  hostAnchored : Nat := 0
  hostAnchoredException : Nat := 0

def Counts.bump (n : Counts) : Class → Counts
  | .drop => n
  | .hostAnchored => { n with hostAnchored := n.hostAnchored + 1 }
  | .hostAnchoredException => { n with hostAnchoredException := n.hostAnchoredException + 1 }
  | .list id => { n with lists := fun i => if i = id then n.lists i + 1 else n.lists i }

/-- ad_block_client.cc:1142-1197, the first pass. -/
def countPass (bad : List Bytes) : List (Bytes × Byte) → Counts → Res Counts
  | [], n => pure n
  | (line, t) :: ls, n => do
    let (f, _) ← parseFilter bad line t false false
    let cl ← classify bad f
    countPass bad ls (n.bump cl)

/-- The bytes written to the 1024 byte `buffer` of ad_block_client.cc:77-86: a longer
domain overflows it. -/
def domainBuffer : Nat := 1024

/-- ad_block_client.cc:66-99 `AddFilterDomainsToHashSet` -/
def addDomains (E : Env) : List Bytes → HSet Bytes → Res (HSet Bytes)
  | [], s => pure s
  | d :: ds, s =>
    if d.length > 0 ∧ d.head? ≠ some ch%'~' then
      if d.length > domainBuffer then .ub .oobWrite
      else addDomains E ds (s.add (· == ·) E.hash d)
    else if d.length > 0 then
      if d.length - 1 > domainBuffer then .ub .oobWrite
      else addDomains E ds (s.add (· == ·) E.hash (d.drop 1))
    else addDomains E ds s

def addFilterDomainsToHashSet (E : Env) (f : Filter) (s : HSet Bytes) : Res (HSet Bytes) :=
  match f.domainList with
  | none => pure s
  | some dl => addDomains E (domainSegments dl) s

/-- The structures written by the second pass. `arr` are the slots of the new arrays
filled so far (`newX .. curX`). -/
structure Build (E : Env) where
  arr : ListId → List Filter
  bloom : E.fp.B
  exceptionBloom : E.fp.B
  hostSet : HSet Filter
  hostExceptionSet : HSet Filter
  domSets : DomId → HSet Bytes

/-- ad_block_client.cc:446-469: the effect of `parseFilter` on the structures. -/
def Build.apply {E} (b : Build E) (f : Filter) : Effect → Res (Build E)
  | .none => pure b
  | .addHostException => do
    let g ← f.copy
    pure { b with hostExceptionSet := b.hostExceptionSet.add filterEq (filterHash E) g }
  | .addHost => do
    let g ← f.copy
    pure { b with hostSet := b.hostSet.add filterEq (filterHash E) g }
  | .addExceptionFingerprint fp => pure { b with exceptionBloom := E.fp.add b.exceptionBloom fp }
  | .addFingerprint fp => pure { b with bloom := E.fp.add b.bloom fp }

/-- The hash set of domains filled for a list (ad_block_client.cc:1402-1411, 1436-1445). -/
def ListId.domId : ListId → Option DomId
  | .noFpDomain => some .domain
  | .noFpAntiDomain => some .antiDomain
  | .noFpDomainException => some .domainException
  | .noFpAntiDomainException => some .antiDomainException
  | _ => none

/-- ad_block_client.cc:1394-1452: file a rule; writing to an array slot past the
allocated `cap` is an out-of-bounds write. -/
def Build.file {E} (b : Build E) (cap : ListId → Nat) (f : Filter) : Class → Res (Build E)
  | .drop => pure b
  | .hostAnchored => pure b
  | .hostAnchoredException => pure b
  | .list id => do
    let b ← match id.domId with
      | none => pure b
      | some d => do
        let s ← addFilterDomainsToHashSet E f (b.domSets d)
        pure { b with domSets := fun i => if i = d then s else b.domSets i }
    if (b.arr id).length < cap id then
      pure { b with arr := fun i => if i = id then b.arr i ++ [f] else b.arr i }
    else .ub .oobWrite

/-- ad_block_client.cc:1386-1461, the second pass. -/
def fillPass (E : Env) (preserve : Bool) (cap : ListId → Nat) :
    List (Bytes × Byte) → Build E → Res (Build E)
  | [], b => pure b
  | (line, t) :: ls, b => do
    let (f, e) ← parseFilter E.bad line t preserve true
    let b ← b.apply f e
    let cl ← classify E.bad f
    let b ← b.file cap f cl
    fillPass E preserve cap ls b

/-- ad_block_client.cc:1103-1117: bucket counts of the domain hash sets -/
def DomId.buckets : DomId → Nat
  | .domain => 1000
  | .antiDomain => 100
  | .domainException => 1000
  | .antiDomainException => 100

/-- ad_block_client.cc:1087-1117 (creation of the structures) and 1262-1350 (the old
filters are moved to the front of the new arrays). -/
def Client.startBuild {E} (c : Client E) : Build E where
  arr := c.lists
  bloom := c.bloom.getD (E.fp.new 15 80000)
  exceptionBloom := c.exceptionBloom.getD (E.fp.new 10 20000)
  hostSet := c.hostSet.getD (HSet.new 18000)
  hostExceptionSet := c.hostExceptionSet.getD (HSet.new 2000)
  domSets := fun d => (c.domSets d).getD (HSet.new d.buckets)

/-- ad_block_client.cc:1082-1469 `parse`; it always returns true.  Slots of the new
arrays that the second pass leaves unwritten hold a default constructed `Filter`. -/
def Client.parse {E} (c : Client E) (input : Bytes) (preserve : Bool) : Res (Client E) := do
  let lines := splitLines input
  let n ← countPass E.bad lines {}
  let cap := fun id => n.lists id + (c.lists id).length
  let b ← fillPass E preserve cap lines c.startBuild
  pure { c with
    lists := fun id => b.arr id ++ List.replicate (cap id - (b.arr id).length) {}
    numHostAnchoredFilters := c.numHostAnchoredFilters + n.hostAnchored
    numHostAnchoredExceptionFilters := c.numHostAnchoredExceptionFilters + n.hostAnchoredException
    bloom := some b.bloom
    exceptionBloom := some b.exceptionBloom
    hostSet := some b.hostSet
    hostExceptionSet := some b.hostExceptionSet
    domSets := fun d => some (b.domSets d) }

/-- ad_block_client.cc:1893-1903 `enableBadFingerprintDetection` -/
def Client.enableBadFingerprintDetection {E} (c : Client E) : Client E :=
  match c.badFps with
  | some _ => c
  | none => { c with badFps := some (E.bad.foldl (fun l w => if l.contains w then l else l ++ [w]) []) }

end AdBlock
