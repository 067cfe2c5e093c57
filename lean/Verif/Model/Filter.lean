import Verif.Model.Chars
/-
The class `Filter`: its data, option parsing, domain lists and the matching algorithm.
Models filter.h:16-86 and filter.cc (without serialisation, see Model/Serialize).
-/
namespace AdBlock

/-! ### Bit masks (filter.h:16-34 `FilterType`, filter.h:36-86 `FilterOption`) -/

abbrev Mask := BitVec 32

/-- `(x & m) != 0` -/
def has (x m : Mask) : Bool := x &&& m != 0

/-! filter.h:16-34 -/
def FTRegex : Mask := 0o1
def FTElementHiding : Mask := 0o2
def FTElementHidingException : Mask := 0o4
def FTHostAnchored : Mask := 0o10
def FTLeftAnchored : Mask := 0o20
def FTRightAnchored : Mask := 0o40
def FTComment : Mask := 0o100
def FTException : Mask := 0o200
def FTEmpty : Mask := 0o400
def FTHostOnly : Mask := 0o1000
def FTHTMLFiltering : Mask := 0o2000
def FTListTypesMask : Mask :=
  FTException ||| FTElementHiding ||| FTElementHidingException ||| FTEmpty ||| FTComment |||
    FTHTMLFiltering

/-! filter.h:36-86 -/
def FOScript : Mask := 0o1
def FOImage : Mask := 0o2
def FOStylesheet : Mask := 0o4
def FOObject : Mask := 0o10
def FOXmlHttpRequest : Mask := 0o20
def FOObjectSubrequest : Mask := 0o40
def FOSubdocument : Mask := 0o100
def FODocument : Mask := 0o200
def FOOther : Mask := 0o400
def FOXBL : Mask := 0o1000
def FOCollapse : Mask := 0o2000
def FODoNotTrack : Mask := 0o4000
def FOElemHide : Mask := 0o10000
def FOThirdParty : Mask := 0o20000
def FONotThirdParty : Mask := 0o40000
def FOPing : Mask := 0o100000
def FOPopup : Mask := 0o200000
def FORedirect : Mask := 0o400000
def FOCSP : Mask := 0o1000000
def FOFont : Mask := 0o2000000
def FOMedia : Mask := 0o4000000
def FOWebRTC : Mask := 0o10000000
def FOGenericHide : Mask := 0o20000000
def FOGenericBlock : Mask := 0o40000000
def FOEmpty : Mask := 0o100000000
def FOWebsocket : Mask := 0o200000000
def FOImportant : Mask := 0o400000000
def FOExplicitCancel : Mask := 0o1000000000
def FOUnknown : Mask := 0o4000000000
/-- filter.h:78-80 -/
def FOResourcesOnly : Mask :=
  FOScript ||| FOImage ||| FOStylesheet ||| FOObject ||| FOXmlHttpRequest |||
  FOObjectSubrequest ||| FOSubdocument ||| FODocument ||| FOOther ||| FOXBL ||| FOFont ||| FOMedia |||
  FOWebRTC ||| FOWebsocket ||| FOPing
/-- filter.h:81-82 -/
def FOUnsupportedSoSkipCheck : Mask :=
  FOPopup ||| FOCSP ||| FOElemHide ||| FOGenericHide ||| FOGenericBlock ||| FOEmpty ||| FOUnknown
/-- filter.h:84-85 -/
def BehavioralFilterOnly : Mask :=
  FORedirect ||| FOImportant ||| FOExplicitCancel ||| FOThirdParty ||| FONotThirdParty

/-- filter.h:88-216 the members of `Filter`.

Simplifications: the strings other than `data` are always NUL terminated (or come with
their exact length, `tag`), so they are given by their contents; `hostLen` is then the
length of `host` (it is -1 for every stored filter).  `data` is a pointer, because not
all filters have NUL terminated data (filter.cc:122-124).  The lazily computed members
`domains`, `antiDomains`, `domainsParsed` are functions of `domainList` and are recomputed
(`Filter.domains`, `Filter.antiDomains`). -/
structure Filter where
  /-- filter.h `borrowed_data` -/
  borrowed : Bool := false
  filterType : Mask := 0
  filterOption : Mask := 0
  antiFilterOption : Mask := 0
  ruleDefinition : Option Bytes := none
  data : Option Ptr := none
  /-- `none` is -1: not computed yet -/
  dataLen : Option Nat := none
  domainList : Option Bytes := none
  /-- `tag`/`tagLen`; the empty list is `tagLen == 0` -/
  tag : Bytes := []
  host : Option Bytes := none
deriving DecidableEq, Repr

/-! ### Options (filter.cc:247-353) -/

/-- filter.cc:266-303: the option names compared with `!strncmp(pStart, name, len)`, in
the order of the code, up to the two `len >= n` comparisons of "csp=" and "redirect=". -/
def optionNames1 : List (Bytes × Mask) :=
  [ (bs%"script", FOScript), (bs%"image", FOImage), (bs%"stylesheet", FOStylesheet),
    (bs%"object", FOObject), (bs%"xmlhttprequest", FOXmlHttpRequest),
    (bs%"object-subrequest", FOObjectSubrequest), (bs%"subdocument", FOSubdocument),
    (bs%"document", FODocument), (bs%"xbl", FOXBL), (bs%"collapse", FOCollapse),
    (bs%"donottrack", FODoNotTrack), (bs%"other", FOOther), (bs%"elemhide", FOElemHide),
    (bs%"third-party", FOThirdParty), (bs%"first-party", FONotThirdParty),
    (bs%"ping", FOPing), (bs%"popup", FOPopup) ]

/-- filter.cc:308-325, the names after "csp=" and "redirect=". -/
def optionNames2 : List (Bytes × Mask) :=
  [ (bs%"font", FOFont), (bs%"media", FOMedia), (bs%"webrtc", FOWebRTC),
    (bs%"generichide", FOGenericHide), (bs%"genericblock", FOGenericBlock),
    (bs%"empty", FOEmpty), (bs%"websocket", FOWebsocket), (bs%"important", FOImportant),
    (bs%"explicitcancel", FOExplicitCancel) ]

/-- The `else if (!strncmp(pStart, name, len))` cascade over a table of names. -/
def findOption (o : Bytes) : List (Bytes × Mask) → Option Mask
  | [] => none
  | (name, m) :: t => if strncmpEq o name o.length then some m else findOption o t

/-- filter.cc:266-333: the bit an option other than `domain=`/`tag=` sets; `o` is
`[pStart, pStart + len)`. -/
def optionBit (o : Bytes) : Mask :=
  match findOption o optionNames1 with
  | some m => m
  | none =>
    if o.length ≥ 4 && strncmpEq o bs%"csp=" 4 then FOCSP
    else if o.length ≥ 9 && strncmpEq o bs%"redirect=" 9 then FORedirect
    else match findOption o optionNames2 with
      | some m => m
      | none => FOUnknown

/-- filter.cc:247-335 `parseOption(input, len)`; `o` is `[input, input + len)`.
(`input[0]` is read also when `len` is 0; it is then ',' or the terminator, never '~'.)
The console message of 328-332 is not modelled. -/
def Filter.parseOption (f : Filter) (o : Bytes) : Filter :=
  let anti := o.head? == some ch%'~'
  let s := if anti then o.drop 1 else o
  if s.length ≥ 7 && strncmpEq s bs%"domain=" 7 then
    { f with domainList := some (s.drop 7) }
  else if s.length ≥ 4 && strncmpEq s bs%"tag=" 4 then
    { f with tag := s.drop 4 }
  else if anti then
    { f with antiFilterOption := f.antiFilterOption ||| optionBit s }
  else
    { f with filterOption := f.filterOption ||| optionBit s }

/-- filter.cc:337-353, the loop of `parseOptions`; `cur` is
`[input + startOffset, p)` and the list is the text from `p` up to the terminator. -/
def Filter.parseOptionsLoop (f : Filter) (cur : Bytes) : Bytes → Filter
  | [] => f.parseOption cur
  | c :: p =>
    if c = 0 || isEndOfLine c then f.parseOption cur
    else if c = ch%',' then (f.parseOption cur).parseOptionsLoop [] p
    else f.parseOptionsLoop (cur ++ [c]) p

/-- filter.cc:337-353 `parseOptions` -/
def Filter.parseOptions (f : Filter) (input : Bytes) : Filter :=
  { f with filterOption := 0, antiFilterOption := 0 }.parseOptionsLoop [] input

/-! ### Domain lists (filter.cc:208-245, 390-427, 659-690) -/

/-- The segments visited by the loops of filter.cc:666-688 (`parseDomains`) and
ad_block_client.cc:73-97 (`AddFilterDomainsToHashSet`): `cur` is
`[domainList + startOffset, p)`. -/
def domainSegmentsLoop (cur : Bytes) : Bytes → List Bytes
  | [] => [cur]
  | c :: p => if c = ch%'|' then cur :: domainSegmentsLoop [] p else domainSegmentsLoop (cur ++ [c]) p

def domainSegments (domainList : Bytes) : List Bytes := domainSegmentsLoop [] domainList

/-- filter.cc:659-690: the contents of `domains` after `parseDomains`; an unset pointer
is the empty list. -/
def Filter.domains (f : Filter) : List Bytes :=
  match f.domainList with
  | none => []
  | some dl => (domainSegments dl).filter fun s => s.head? != some ch%'~'

/-- filter.cc:659-690: the contents of `antiDomains` after `parseDomains`. -/
def Filter.antiDomains (f : Filter) : List Bytes :=
  match f.domainList with
  | none => []
  | some dl => ((domainSegments dl).filter fun s => s.head? == some ch%'~').map (·.drop 1)

/-- filter.cc:223-235 `getDomainCount(anti)` (the sets are multisets, `HashSet(5, true)`). -/
def Filter.getDomainCount (f : Filter) (anti : Bool) : Nat :=
  if anti then f.antiDomains.length else f.domains.length

/-- filter.cc:237-240 -/
def Filter.isDomainOnlyFilter (f : Filter) : Bool :=
  f.getDomainCount false != 0 && f.getDomainCount true == 0

/-- filter.cc:242-245 -/
def Filter.isAntiDomainOnlyFilter (f : Filter) : Bool :=
  f.getDomainCount true != 0 && f.getDomainCount false == 0

/-- filter.cc:208-221 `containsDomain` -/
def Filter.containsDomain (f : Filter) (domain : Bytes) (anti : Bool) : Bool :=
  if anti then f.antiDomains.contains domain else f.domains.contains domain

/-- filter.cc:402-415, the loop of `contextDomainMatchesFilter`; `start` is the string at
`start` and the last argument the string at `p`. -/
def Filter.contextDomainLoop (f : Filter) (start : Bytes) : Bytes → Option Bool
  | [] => none
  | c :: p =>
    if c = ch%'.' then
      if f.containsDomain start false then some true
      else if f.containsDomain start true then some false
      else f.contextDomainLoop p p
    else f.contextDomainLoop start p

/-- filter.cc:390-427 `contextDomainMatchesFilter` -/
def Filter.contextDomainMatchesFilter (f : Filter) (contextDomain : Bytes) : Bool :=
  if f.getDomainCount false == 0 && f.getDomainCount true == 0 then true
  else match f.contextDomainLoop contextDomain contextDomain with
    | some b => b
    | none =>
      if f.getDomainCount false == 0 && f.getDomainCount true > 0 then true
      else f.getDomainCount false == 0

/-! ### Hosts and options (filter.cc:355-491) -/

/-- filter.cc:355-369 `endsWith` -/
def endsWith (input sub : Bytes) : Bool :=
  if sub.length > input.length then false
  else input.drop (input.length - sub.length) == sub

/-- filter.cc:371-384 `isThirdPartyHost(baseContextHost, testHost)` -/
def isThirdPartyHost (base test : Bytes) : Bool :=
  if !endsWith test base then true
  else if test.length = base.length then false
  else test.getD (test.length - base.length - 1) 0 != ch%'.' && test.length != base.length

/-- filter.cc:386-388 -/
def Filter.hasUnsupportedOptions (f : Filter) : Bool :=
  has f.filterOption FOUnsupportedSoSkipCheck

/-- filter.cc:470-475 the domain check of `matchesOptions`: does it fail? -/
def Filter.domainCheckFails (f : Filter) (contextDomain : Option Bytes) : Bool :=
  match f.domainList, contextDomain with
  | some _, some cd => !f.contextDomainMatchesFilter cd
  | _, _ => false

/-- filter.cc:434-491 `matchesOptions`; `context` is the second argument. -/
def Filter.matchesOptions (f : Filter) (context : Mask) (contextDomain : Option Bytes) : Bool :=
  if f.hasUnsupportedOptions then false
  else if !has f.filterOption FODocument && has context FODocument then false
  else if context != 0 &&
      ((f.filterOption &&& ~~~BehavioralFilterOnly) != 0
        && !has (f.filterOption &&& FOResourcesOnly) context) then false
  else if context != 0 &&
      ((f.antiFilterOption &&& ~~~BehavioralFilterOnly) != 0
        && has (f.antiFilterOption &&& FOResourcesOnly) context) then false
  else if context == 0 && has f.filterOption FOResourcesOnly then false
  else if context == 0 && has f.antiFilterOption FOResourcesOnly then false
  else if f.domainCheckFails contextDomain then false
  else if has context (FOThirdParty ||| FONotThirdParty) &&
      (has f.filterOption FOThirdParty && has context FONotThirdParty) then false
  else if has context (FOThirdParty ||| FONotThirdParty) &&
      (has f.antiFilterOption FOThirdParty && has context FOThirdParty) then false
  else true

/-! ### Pattern matching (filter.cc:494-657) -/

/-- filter.cc:494-500 `getNextPos(p, sep, p + n)`, as an offset from `p`. -/
def getNextPos (sep : Byte) : Ptr → Nat → Res Nat
  | _, 0 => .ok 0
  | [], _ + 1 => .ub .oobRead
  | c :: p, n + 1 => if c = 0 || c = sep then .ok 0 else (· + 1) <$> getNextPos sep p n

/-- Result of the inner loop of `indexOfFilter`. -/
inductive SegRes where
  | full      -- `match` stayed true
  | mismatch  -- `match = false; break`
  | abort     -- `return -1` (filter.cc:526-528)
deriving DecidableEq, Repr

/-- filter.cc:516-532, the inner loop of `indexOfFilter`: `inp` is `input + i + j`, the
list the rest of the filter part. -/
def matchAt (inp : Ptr) : Bytes → Res SegRes
  | [] => .ok .full
  | fc :: fs => do
    let ic ← rd inp 0
    if fc != ic then
      if fc == ch%'^' && (isSeparatorChar ic || ic == 0) then matchAt (inp.drop 1) fs
      else if ic == 0 then pure .abort
      else pure .mismatch
    else matchAt (inp.drop 1) fs

/-- filter.cc:514-536, the outer loop of `indexOfFilter`; the first argument is
`inputLen - i`, `inp` is `input + i`; the result is relative to `inp`. -/
def indexLoop (part : Bytes) : Nat → Ptr → Res (Option Nat)
  | 0, _ => .ok none
  | n + 1, inp => do
    match ← matchAt inp part with
    | .full => pure (some 0)
    | .abort => pure none
    | .mismatch => (Option.map (· + 1)) <$> indexLoop part n (inp.drop 1)

/-- filter.cc:506-538 `indexOfFilter`; `none` is -1. -/
def indexOfFilter (inp : Ptr) (inputLen : Int) (part : Bytes) : Res (Option Nat) :=
  if part = [ch%'^'] then .ok none
  else if (part.length : Int) > inputLen then .ok none
  else indexLoop part inputLen.toNat inp

/-- filter.cc:627-634: the checks of a filter part against the two byte bloom filter of
the input; `ex` is `inputBloomFilter->exists(.., 2)`. -/
def partBloomOk (ex : Bytes → Bool) : Bytes → Bool
  | a :: b :: c :: rest =>
    (isSeparatorChar a || isSeparatorChar b || ex [a, b]) && partBloomOk ex (b :: c :: rest)
  | _ => true

/-- filter.cc:606-612: the checks of the host of the filter against the bloom filter. -/
def hostBloomOk (ex : Bytes → Bool) : Bytes → Bool
  | a :: b :: rest => ex [a, b] && hostBloomOk ex (b :: rest)
  | _ => true

/-- filter.cc:626-635: the check is only made if there is a bloom filter. -/
def partPasses (bloom : Option (Bytes → Bool)) (part : Bytes) : Bool :=
  match bloom with
  | some ex => partBloomOk ex part
  | none => true

/-- filter.cc:623-654, the loop of the wildcard comparison.  `d` is `filterPartStart`,
`rem` is `data + dataLen - filterPartStart`, `partLen` is
`filterPartEnd - filterPartStart`. -/
def wildLoop (bloom : Option (Bytes → Bool)) (input : Ptr) (inputLen : Nat) :
    (fuel : Nat) → (d : Ptr) → (rem partLen index : Nat) → Res Bool
  | 0, _, _, _, _ => .ub .fuel
  | fuel + 1, d, rem, partLen, index => do
    let enter ← if partLen ≠ 0 then pure true else (· == ch%'*') <$> rd d 0
    if !enter then pure true
    else if !partPasses bloom (d.take partLen) then pure false
    else
      match ← indexOfFilter (input.drop index) ((inputLen : Int) - index) (d.take partLen) with
      | none => pure false
      | some k =>
        if partLen = rem then pure true
        else do
          let e ← rd d partLen
          if e = 0 then pure true
          else do
            let np ← getNextPos ch%'*' (d.drop (partLen + 1)) (rem - (partLen + 1))
            let c ← rd input (index + k)
            if c = 0 then pure true
            else
              wildLoop bloom input inputLen fuel (d.drop (partLen + 1)) (rem - (partLen + 1))
                np (index + k + partLen)

/-- filter.cc:619-656, the wildcard comparison (each turn of the loop moves
`filterPartStart` forward, so `dataLen + 1` turns suffice). -/
def wildMatch (bloom : Option (Bytes → Bool)) (input : Ptr) (inputLen : Nat) (d : Ptr)
    (dataLen : Nat) : Res Bool := do
  let first ← getNextPos ch%'*' d dataLen
  wildLoop bloom input inputLen (dataLen + 1) d dataLen first 0

/-- filter.cc:593-617: does the domain name anchor reject the input? -/
def Filter.hostAnchorOk (f : Filter) (url : Bytes) (bloom : Option (Bytes → Bool)) : Bool :=
  let host := f.host.getD []
  (match bloom with | some ex => hostBloomOk ex host | none => true)
    && !isThirdPartyHost host (getUrlHost url)

/-- filter.cc:563-656: the comparison of the pattern of a filter (its type, data and host)
with the input, i.e. `matches` after the option check and the null check. -/
def Filter.matchesPattern (f : Filter) (d : Ptr) (dataLen : Nat) (url : Bytes)
    (bloom : Option (Bytes → Bool)) : Res Bool :=
  if has f.filterType FTRegex then pure false
  else if has f.filterType FTLeftAnchored && has f.filterType FTRightAnchored then
    strcmpEq d (cstr url)
  else if has f.filterType FTRightAnchored then
    if dataLen > url.length then pure false
    else strcmpEq ((cstr url).drop (url.length - dataLen)) d
  else if has f.filterType FTLeftAnchored then
    strncmpPtrEq d (cstr url) dataLen
  else if has f.filterType FTHostAnchored && !f.hostAnchorOk url bloom then pure false
  else wildMatch bloom (cstr url) url.length d dataLen

/-- filter.cc:547-657 `Filter::matches`.

`url` is the contents of the NUL terminated `input`, `bloom` the `exists` predicate of
`inputBloomFilter` (or null).  `inputHost`/`inputHostLen` are, in every call, either
what `getUrlHost(input)` returns or absent, in which case it is called at 598; both give
`getUrlHost url`.  Built without ENABLE_REGEX, as in binding.gyp (563-572).  The caching
of `dataLen` (558-561) is left out: it does not change any result. -/
def Filter.matches (f : Filter) (url : Bytes) (contextOption : Mask)
    (contextDomain : Option Bytes) (bloom : Option (Bytes → Bool)) : Res Bool :=
  if !f.matchesOptions contextOption contextDomain then pure false
  else match f.data with
    | none => pure false
    | some d => do
      let dataLen ← match f.dataLen with | some n => pure n | none => strlen d
      f.matchesPattern d dataLen url bloom

/-! ### Copies -/

/-- filter.cc:100-159, the copy constructor, which fills the host anchored hash sets.
A copied filter owns `dataLen` bytes of data, with no terminator. -/
def Filter.copy (f : Filter) : Res Filter := do
  let dataLen ← match f.dataLen, f.data with
    | none, some d => some <$> strlen d
    | n, _ => pure n
  if f.borrowed then pure { f with dataLen := dataLen }
  else
    pure { f with
      dataLen := dataLen
      data := f.data.map (·.take (dataLen.getD 0)) }

end AdBlock
