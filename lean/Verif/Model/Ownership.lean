import Verif.Model.Client
/-
Ownership of memory: which blocks a client, as used through the Node interface
(ad_block_client_wrap.cc), allocates, frees and reads.

This model is separate from the one of the verdicts.  It keeps only where pointers point to,
not what is stored there.  What depends on contents is a parameter of the operations, so that
the theorems hold whatever it is: which strings a line of the input has, where the rule is
stored, which rules a query looks at, what serialized data contain.

Simplifications:
* The ten arrays of filters are represented together: `arrays` are the blocks of the arrays,
  `filters` the filters in them, each with the array it is in.  Elements of a new array that
  are still empty own nothing and are left out.
* A hash set or bloom filter is one block, together with what the libraries allocate for it.
  The filters in the two sets of filters are `hostFilters`, the entries of the four sets of
  domains `entries`.
* Tags and statistics own nothing that is shared and are left out.
-/
namespace AdBlock.Own

/-- The heap: the blocks in use, and the number of the next new one (blocks are never reused, so
that a pointer to a freed block is recognised as such). -/
structure Heap where
  live : List Nat := []
  next : Nat := 0
deriving DecidableEq, Repr

/-- Where a `char *` (or a pointer to a set) points to. -/
inductive Pt where
  | null
  /-- to the start of a block -/
  | start (b : Nat)
  /-- into a block, behind its start -/
  | inner (b : Nat)
deriving DecidableEq, Repr

/-- `new` -/
def Heap.alloc (h : Heap) : Heap × Nat := (⟨h.next :: h.live, h.next + 1⟩, h.next)

/-- Freeing a block that is not in use is undefined. -/
def Heap.free (h : Heap) (b : Nat) : Res Heap :=
  if b ∈ h.live then .ok { h with live := h.live.erase b } else .ub .badFree

/-- `if (p) delete[] p;` -/
def Heap.delete (h : Heap) : Pt → Res Heap
  | .null => .ok h
  | .start b => h.free b
  | .inner _ => .ub .badFree

/-- Reading through a pointer that may be null (the program tests that first). -/
def Heap.touch (h : Heap) : Pt → Res Unit
  | .null => .ok ()
  | .start b => if b ∈ h.live then .ok () else .ub .useAfterFree
  | .inner b => if b ∈ h.live then .ok () else .ub .useAfterFree

/-- The pointers of a `Filter` (filter.h:187-207).  `domains` and `antiDomains` are sets of
`ContextDomain`s, which point into `domainList` (context_domain.h:12-13). -/
structure OFilter where
  borrowed : Bool := false
  data : Pt := .null
  ruleDefinition : Pt := .null
  domainList : Pt := .null
  tag : Pt := .null
  tagLen : Nat := 0
  host : Pt := .null
  domains : Pt := .null
  antiDomains : Pt := .null
  domainsParsed : Bool := false
deriving DecidableEq, Repr

/-- filter.cc:43-67 `~Filter` -/
def destroy (h : Heap) (f : OFilter) : Res Heap := do
  let h ← h.delete f.domains
  let h ← h.delete f.antiDomains
  if f.borrowed then pure h
  else do
    let h ← h.delete f.data
    let h ← h.delete f.ruleDefinition
    let h ← h.delete f.domainList
    let h ← h.delete f.tag
    h.delete f.host

/-- Destructors of the elements of an array. -/
def destroyAll (h : Heap) : List OFilter → Res Heap
  | [] => .ok h
  | f :: fs => do
    let h ← destroy h f
    destroyAll h fs

/-- Freeing several blocks. -/
def freeAll (h : Heap) : List Nat → Res Heap
  | [] => .ok h
  | b :: bs => do
    let h ← h.free b
    freeAll h bs

/-- `p = new char[...]` if `yes`. -/
def allocIf (yes : Bool) (h : Heap) : Heap × Pt :=
  if yes then (h.alloc.1, .start h.alloc.2) else (h, .null)

/-- Allocation of several blocks. -/
def allocN : Nat → Heap → Heap × List Nat
  | 0, h => (h, [])
  | n + 1, h =>
    let (h, b) := h.alloc
    let (h, bs) := allocN n h
    (h, b :: bs)

/-- filter.cc:100-159, the copy constructor. -/
def copyFilter (h : Heap) (f : OFilter) : Heap × OFilter :=
  if f.borrowed then (h, { f with domains := .null, antiDomains := .null, domainsParsed := false })
  else
    let (h, data) := allocIf (f.data ≠ .null) h
    let (h, domainList) := allocIf (f.domainList ≠ .null) h
    let (h, tag) := allocIf (f.tagLen > 0) h
    let (h, host) := allocIf (f.host ≠ .null) h
    let (h, ruleDefinition) := allocIf (f.ruleDefinition ≠ .null) h
    (h, { data, domainList, tag, host, ruleDefinition, tagLen := f.tagLen })

/-- filter.cc:161-206 `swapData`: everything but `borrowed_data` changes sides. -/
def swapData (a b : OFilter) : OFilter × OFilter :=
  ({ b with borrowed := a.borrowed }, { a with borrowed := b.borrowed })

/-- filter.cc:247-265, the part of `parseOption` that allocates: a former list or tag is not
freed. -/
def parseOption (h : Heap) (f : OFilter) (opt : Bytes) : Heap × OFilter :=
  let o := if opt.head? = some ch%'~' then opt.drop 1 else opt
  if bs%"domain=".isPrefixOf o then
    (h.alloc.1, { f with domainList := .start h.alloc.2 })
  else if bs%"tag=".isPrefixOf o then
    (h.alloc.1, { f with tag := .start h.alloc.2, tagLen := o.length - 4 })
  else (h, f)

/-- filter.cc:337-353 `parseOptions` -/
def parseOptions (h : Heap) (f : OFilter) : List Bytes → Heap × OFilter
  | [] => (h, f)
  | o :: os =>
    let (h, f) := parseOption h f o
    parseOptions h f os

/-- What the memory management needs to know of a line of the input. -/
structure Line where
  /-- a host is stored (ad_block_client.cc:284) -/
  host : Bool := false
  /-- the domains in front of `##` or `$$` are stored (371, 399) -/
  sites : Bool := false
  /-- the options after `$` -/
  options : List Bytes := []
  /-- the pattern is stored (347, 440; not for comments and blank lines) -/
  data : Bool := false
  /-- the set the rule is copied to, if it is not there already (454-460; `true`: exceptions) -/
  hostSet : Option Bool := none
  /-- the array the rule is stored in, if any -/
  dest : Option ListId := none
  /-- were the domains parsed to find the array, and did that give domains and anti-domains? -/
  parsed : Option (Bool × Bool) := none
  /-- the new entries of the sets of domains (66-99) -/
  entries : List DomId := []
deriving Repr

/-- ad_block_client.cc:235-470 `parseFilter` without the hash sets. -/
def parseLine (h : Heap) (l : Line) (preserveRules : Bool) : Heap × OFilter :=
  let (h, host) := allocIf l.host h
  let (h, domainList) := allocIf l.sites h
  let (h, f) := parseOptions h { host, domainList } l.options
  let (h, ruleDefinition) := allocIf (preserveRules && l.data) h
  let (h, data) := allocIf l.data h
  (h, { f with ruleDefinition, data })

/-- filter.cc:659-690 `parseDomains`: `found` says whether the list has domains, anti-domains. -/
def parseDomains (h : Heap) (f : OFilter) (found : Bool × Bool) : Heap × OFilter :=
  if f.domainList = .null ∨ f.domainsParsed then (h, f)
  else
    let (h, domains) := if f.domains = .null then allocIf found.1 h else (h, f.domains)
    let (h, antiDomains) := if f.antiDomains = .null then allocIf found.2 h else (h, f.antiDomains)
    (h, { f with domains, antiDomains, domainsParsed := true })

/-- `isDomainOnlyFilter` and `isAntiDomainOnlyFilter` in the two passes of `parse`. -/
def parseDomainsIf (h : Heap) (f : OFilter) : Option (Bool × Bool) → Heap × OFilter
  | none => (h, f)
  | some found => parseDomains h f found

/-- A pointer into the block another one points to. -/
def into : Pt → Pt
  | .null => .null
  | .start b => .inner b
  | .inner b => .inner b

/-- State of a client. -/
structure OClient where
  arrays : List Nat := []
  filters : List (ListId × OFilter) := []
  /-- bloom filters and hash sets, by number: 0 and 1 the bloom filters, 2 and 3 the sets of
  filters, 4 to 7 the sets of domains, 8 the bad fingerprints -/
  objects : List (Nat × Nat) := []
  hostFilters : List (Bool × OFilter) := []
  entries : List (DomId × Pt) := []
  /-- `deserializedBuffer`, allocated by the Node interface -/
  buffer : Option Nat := none
deriving DecidableEq, Repr

/-- `if (!p) p = new ...` for the objects with the given numbers. -/
def createMissing (h : Heap) (objects : List (Nat × Nat)) : List Nat → Heap × List (Nat × Nat)
  | [] => (h, objects)
  | k :: ks =>
    if objects.any (·.1 = k) then createMissing h objects ks
    else createMissing h.alloc.1 (objects ++ [(k, h.alloc.2)]) ks

/-- ad_block_client.cc:518-614 `clear` -/
def OClient.clear (h : Heap) (c : OClient) : Res (Heap × OClient) := do
  let h ← destroyAll h (c.filters.map (·.2))
  let h ← freeAll h c.arrays
  let h ← destroyAll h (c.hostFilters.map (·.2))
  let h ← freeAll h (c.objects.map (·.2))
  pure (h, { buffer := c.buffer })

/-- ad_block_client.cc:1142-1197: the first pass over the lines. -/
def pass1 (h : Heap) : List Line → Res Heap
  | [] => .ok h
  | l :: ls => do
    let (h, f) := parseLine h l false
    let (h, f) := parseDomainsIf h f l.parsed
    let h ← destroy h f
    pass1 h ls

/-- ad_block_client.cc:454-460 (`parseFilter`): a copy of a host-only rule goes into one of the
hash sets, unless the set has an equal rule (then `l.hostSet = none`). -/
def addCopy (h : Heap) (c : OClient) (f : OFilter) : Option Bool → Heap × OClient
  | none => (h, c)
  | some e =>
    let (h, g) := copyFilter h f
    (h, { c with hostFilters := c.hostFilters ++ [(e, g)] })

/-- One line of the second pass, ad_block_client.cc:1386-1461. -/
def storeLine (h : Heap) (c : OClient) (l : Line) (preserveRules : Bool) : Res (Heap × OClient) := do
  let (h, f) := parseLine h l preserveRules
  let (h, c) := addCopy h c f l.hostSet
  let (h, f) := parseDomainsIf h f l.parsed
  match l.dest with
  | none => do
    let h ← destroy h f
    pure (h, c)
  | some k => do
    let entries := l.entries.map fun d => (d, into f.domainList)
    let (slot, rest) := swapData {} f
    let h ← destroy h rest
    pure (h, { c with filters := c.filters ++ [(k, slot)], entries := c.entries ++ entries })

def pass2 (h : Heap) (c : OClient) (preserveRules : Bool) : List Line → Res (Heap × OClient)
  | [] => .ok (h, c)
  | l :: ls => do
    let (h, c) ← storeLine h c l preserveRules
    pass2 h c preserveRules ls

/-- ad_block_client.cc:1082-1469 `parse` -/
def OClient.parse (h : Heap) (c : OClient) (ls : List Line) (preserveRules : Bool) : Res (Heap × OClient) := do
  let (h, objects) := createMissing h c.objects [0, 1, 2, 3, 4, 5, 6, 7]
  let h ← pass1 h ls
  let (h, arrays) := allocN 10 h
  -- 1262-1350: the old filters change sides, then the old arrays are deleted
  let moved := c.filters.map fun kf => (kf.1, swapData {} kf.2)
  let h ← destroyAll h (moved.map fun x => { x.2.2 with borrowed := true })
  let h ← freeAll h c.arrays
  pass2 h { c with arrays, objects, filters := moved.map fun x => (x.1, x.2.1) } preserveRules ls

/-- A look at one filter in a query: its strings are read; `some found`: its domains are
parsed if they were not. -/
def visit (h : Heap) (f : OFilter) (look : Option (Option (Bool × Bool))) : Res (Heap × OFilter) :=
  match look with
  | none => .ok (h, f)
  | some found => do
    h.touch f.data
    h.touch f.domainList
    h.touch f.tag
    h.touch f.host
    h.touch f.ruleDefinition
    pure (parseDomainsIf h f found)

/-- Looks at filters in turn. -/
def visitAll {K : Type} (h : Heap) : List (K × OFilter) → List (Option (Option (Bool × Bool))) → Res (Heap × List (K × OFilter))
  | [], _ => .ok (h, [])
  | fs, [] => .ok (h, fs)
  | (k, f) :: fs, v :: vs => do
    let (h, f) ← visit h f v
    let (h, fs) ← visitAll h fs vs
    pure (h, (k, f) :: fs)

/-- Reading all entries of the sets of domains. -/
def touchAll (h : Heap) : List Pt → Res Unit
  | [] => .ok ()
  | p :: ps => do
    h.touch p
    touchAll h ps

/-- `matches`, `findMatchingFilters` or `getFilters`: reads entries of sets and some filters. -/
def OClient.query (h : Heap) (c : OClient) (vs ws : List (Option (Option (Bool × Bool)))) : Res (Heap × OClient) := do
  touchAll h (c.entries.map (·.2))
  let (h, filters) ← visitAll h c.filters vs
  let (h, hostFilters) ← visitAll h c.hostFilters ws
  pure (h, { c with filters, hostFilters })

/-- ad_block_client.cc:1545-1725 `serialize` and ad_block_client_wrap.cc:326-350: everything is
read, the buffer made and freed. -/
def OClient.serialize (h : Heap) (c : OClient) : Res (Heap × OClient) := do
  let (h, c) ← c.query h (c.filters.map fun _ => some none) (c.hostFilters.map fun _ => some none)
  let (h, b) := h.alloc
  let h ← h.free b
  pure (h, c)

/-- Which strings of a serialized filter are there. -/
structure Layout where
  data : Bool
  domainList : Bool
  tag : Bool
  host : Bool
deriving Repr

/-- ad_block_client.cc:1729-1780, filter.cc:760-819: a filter read from the buffer `b` (the strings
lie behind the header). -/
def fromBuffer (b : Nat) (l : Layout) : OFilter :=
  { borrowed := true
    data := if l.data then .inner b else .null
    domainList := if l.domainList then .inner b else .null
    tag := if l.tag then .inner b else .null
    host := if l.host then .inner b else .null }

/-- What serialized data contain.  If `deserialize` fails, fewer objects and entries are made. -/
structure Blob where
  filters : List (ListId × Layout)
  hostFilters : List (Bool × Layout)
  entries : List DomId
  objects : List Nat

/-- ad_block_client_wrap.cc:351-379 `Deserialize` with ad_block_client.cc:1782-1891. -/
def OClient.deserialize (h : Heap) (c : OClient) (x : Blob) : Res (Heap × OClient) := do
  let h ← freeAll h c.buffer.toList
  let (h, b) := h.alloc
  let (h, c) ← c.clear h
  let (h, arrays) := allocN 10 h
  let (h, objects) := createMissing h c.objects x.objects
  pure (h, { c with
    arrays, objects
    buffer := some b
    filters := x.filters.map fun y => (y.1, fromBuffer b y.2)
    hostFilters := x.hostFilters.map fun y => (y.1, fromBuffer b y.2)
    entries := x.entries.map fun d => (d, .inner b) })

/-- ad_block_client.cc:1893-1903 `enableBadFingerprintDetection` -/
def OClient.enableBad (h : Heap) (c : OClient) : Heap × OClient :=
  let (h, objects) := createMissing h c.objects [8]
  (h, { c with objects })

/-- ad_block_client_wrap.cc:655-664 `Cleanup` (with `~AdBlockClient`, ad_block_client.cc:513-515). -/
def OClient.cleanup (h : Heap) (c : OClient) : Res Heap := do
  let h ← freeAll h c.buffer.toList
  let (h, _) ← c.clear h
  pure h

/-- The calls of the Node interface that concern memory. -/
inductive OOp where
  | parse (ls : List Line) (preserveRules : Bool)
  | query (vs ws : List (Option (Option (Bool × Bool))))
  | serialize
  | deserialize (x : Blob)
  | clear
  | enableBad

def step (h : Heap) (c : OClient) : OOp → Res (Heap × OClient)
  | .parse ls pr => c.parse h ls pr
  | .query vs ws => c.query h vs ws
  | .serialize => c.serialize h
  | .deserialize x => c.deserialize h x
  | .clear => c.clear h
  | .enableBad => .ok (c.enableBad h)

def run (h : Heap) (c : OClient) : List OOp → Res (Heap × OClient)
  | [] => .ok (h, c)
  | op :: ops => do
    let (h, c) ← step h c op
    run h c ops

/-- The whole life of a client: construction, calls, `cleanup`; the heap at the end. -/
def life (ops : List OOp) : Res Heap := do
  let (h, c) ← run {} {} ops
  c.cleanup h

end AdBlock.Own
