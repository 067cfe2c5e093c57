import Verif.Model.Client
/-
The Node methods `matches`, `findMatchingFilters` and `getFilters`, and the lengths which the
latter and the matching code compute and store.
Models ad_block_client_wrap.cc:264-324, 437-572 and filter.cc:558-561.
-/
namespace AdBlock

/-- filter.cc:558-561 and ad_block_client_wrap.cc:487-489 and 498-500: compute the length of the text, if it
is not known, and store it.  (A text without end keeps its unknown length; the callers run
`strlen` themselves.) -/
def Filter.cached (f : Filter) : Filter :=
  match f.data, f.dataLen with
  | some d, none =>
    match strlen d with
    | .ok n => { f with dataLen := some n }
    | .ub _ => f
  | _, _ => f

/-- ad_block_client_wrap.cc:485-568: the object reported for a filter; a property that is not
set is `none`. -/
structure Report where
  data : Option Bytes := none
  host : Option Bytes := none
  domainList : List Bytes := []
  antiDomainList : List Bytes := []
  isDomainOnlyFilter : Bool := false
  isAntiDomainOnlyFilter : Bool := false
  isDomainOnlyExceptionFilter : Bool := false
  isAntiDomainOnlyExceptionFilter : Bool := false
  tag : Bytes := []
deriving DecidableEq, Repr

/-- ad_block_client_wrap.cc:490-495 and 501-506: `n` bytes are copied to a buffer of `n + 1`
bytes, the last of which is NUL; its contents are reported. -/
def copyText (p : Ptr) (n : Nat) : Res Bytes :=
  if n ≤ p.length then cstrAt (p.take n ++ [0]) else .ub .oobRead

/-- ad_block_client_wrap.cc:486-496 and 497-507: the text at a pointer with a length (-1 is
`none`): what is reported, and the length stored. -/
def reportText (p : Option Ptr) (len : Option Nat) : Res (Option Bytes × Option Nat) :=
  match p with
  | none => pure (none, len)
  | some d =>
    if len = some 0 then pure (none, len)
    else do
      let n ← match len with
        | some n => pure n
        | none => strlen d
      let s ← copyText d n
      pure (some s, some n)

/-- ad_block_client_wrap.cc:516-517, 527, 531 and 538: the `len` bytes at `offset` of the list are
copied to a zeroed buffer as large as the list with its terminator. -/
def domainText (domainList : Bytes) (offset len : Nat) : Res Bytes :=
  if domainList.length + 1 < len then .ub .oobWrite
  else if domainList.length + 1 < offset + len then .ub .oobRead
  else cstrAt (((cstr domainList).drop offset).take len ++ List.replicate (domainList.length + 1 - len) 0)

/-- ad_block_client_wrap.cc:523-545, the loop over a list of domains; the last argument is the
text from `p` on.  (`len` is set to -1 at 537 and incremented at 544: the two are one step here.) -/
def reportDomainsLoop (domainList : Bytes) (startOffset len : Nat) (ds as : List Bytes) :
    Bytes → Res (List Bytes × List Bytes)
  | [] => endOfDomain len ds as
  | c :: p =>
    if c = ch%'|' then do
      let (ds, as) ← endOfDomain len ds as
      reportDomainsLoop domainList (startOffset + len + 1) 0 ds as p
    else reportDomainsLoop domainList startOffset (len + 1) ds as p
where
  /-- ad_block_client_wrap.cc:526-534 -/
  endOfDomain (len : Nat) (ds as : List Bytes) : Res (List Bytes × List Bytes) := do
    let c ← rd ((cstr domainList).drop startOffset) 0
    if 0 < len ∧ c ≠ ch%'~' then do
      let d ← domainText domainList startOffset len
      pure (ds ++ [d], as)
    else if 0 < len ∧ c = ch%'~' then do
      let d ← domainText domainList (startOffset + 1) (len - 1)
      pure (ds, as ++ [d])
    else pure (ds, as)

/-- ad_block_client_wrap.cc:509-547 -/
def reportDomains : Option Bytes → Res (List Bytes × List Bytes)
  | none => pure ([], [])
  | some dl => reportDomainsLoop dl 0 0 [] [] dl

/-- ad_block_client_wrap.cc:484-570, one turn of the loop: the report, and the filter and its
`hostLen` afterwards. -/
def reportFilter (f : Filter) (hostLen : Option Nat) : Res (Report × Filter × Option Nat) := do
  let (data, dataLen) ← reportText f.data f.dataLen
  let (host, hostLen) ← reportText (f.host.map cstr) hostLen
  let (ds, as) ← reportDomains f.domainList
  pure ({
    data := data
    host := host
    domainList := ds
    antiDomainList := as
    isDomainOnlyFilter := f.isDomainOnlyFilter && has (~~~ f.filterType) FTException
    isAntiDomainOnlyFilter := f.isAntiDomainOnlyFilter && has (~~~ f.filterType) FTException
    isDomainOnlyExceptionFilter := f.isDomainOnlyFilter && has f.filterType FTException
    isAntiDomainOnlyExceptionFilter := f.isAntiDomainOnlyFilter && has f.filterType FTException
    tag := f.tag }, { f with dataLen := dataLen }, hostLen)

/-- ad_block_client_wrap.cc:484-570, the loop over an array; `hostLen i` belongs to the filter `i`. -/
def reportFilters (hostLen : Nat → Option Nat) :
    Nat → List Filter → Res (List (Report × Filter × Option Nat))
  | _, [] => pure []
  | i, f :: fs => do
    let r ← reportFilter f (hostLen i)
    let rs ← reportFilters hostLen (i + 1) fs
    pure (r :: rs)

/-- ad_block_client_wrap.cc:448-482: the array for a name.  (The names are compared with `strcmp`;
a name with a NUL byte in it is not considered.) -/
def listOfName (name : Bytes) : Option ListId :=
  if name = bs%"filters" then some .filters
  else if name = bs%"cosmeticFilters" then some .cosmetic
  else if name = bs%"htmlFilters" then some .html
  else if name = bs%"exceptionFilters" then some .exception
  else if name = bs%"noFingerprintFilters" then some .noFp
  else if name = bs%"noFingerprintExceptionFilters" then some .noFpException
  else if name = bs%"noFingerprintDomainOnlyFilters" then some .noFpDomain
  else if name = bs%"noFingerprintAntiDomainOnlyFilters" then some .noFpAntiDomain
  else if name = bs%"noFingerprintDomainOnlyExceptionFilters" then some .noFpDomainException
  else if name = bs%"noFingerprintAntiDomainOnlyExceptionFilters" then some .noFpAntiDomainException
  else none

/-- A client as seen from Node: with the `hostLen` members of the filters of the arrays, which
`Filter` does not have (`none` is -1, their value in every new filter). -/
structure NodeClient (E : Env) where
  client : Client E := {}
  hostLen : ListId → Nat → Option Nat := fun _ _ => none

/-- ad_block_client_wrap.cc:437-572 `getFilters` -/
def NodeClient.getFilters {E} (w : NodeClient E) (name : Bytes) : Res (List Report × NodeClient E) :=
  match listOfName name with
  | none => pure ([], w)
  | some id => do
    let rs ← reportFilters (w.hostLen id) 0 (w.client.lists id)
    pure (rs.map (·.1), {
      client := { w.client with
        lists := fun i => if i = id then rs.map (·.2.1) else w.client.lists i }
      hostLen := fun i k => if i = id then (match rs[k]? with | some r => r.2.2 | none => none) else w.hostLen i k })

/-- ad_block_client_wrap.cc:271-273 and 292-294: the page given to the client.  An argument which is
left out is converted to a string as well, which is `undefined`.  (Arguments are strings without NUL.) -/
def pageArgument : Option Bytes → Bytes
  | some page => page
  | none => bs%"undefined"

/-- ad_block_client_wrap.cc:264-282 `matches`.  (A resource type which is left out is converted to 0,
`FONoFilterOption`.) -/
def Client.nodeMatches {E} (c : Client E) (url : Bytes) (option : Mask) (page : Option Bytes) : Res (Bool × Client E) :=
  c.matches url option (some (pageArgument page))

/-- ad_block_client_wrap.cc:304-323: the object that is returned; a property that is not set is
`none`. -/
structure FoundData where
  isMatch : Bool
  matchingFilter : Option Bytes
  matchingOrigRule : Option Bytes
  matchingExceptionFilter : Option Bytes
  matchingExceptionOrigRule : Option Bytes
deriving DecidableEq, Repr

/-- ad_block_client_wrap.cc:307-314 and 315-322: the texts reported for a filter.  `NewFromUtf8` without a
length reads up to the NUL. -/
def foundTexts : Option Filter → Res (Option Bytes × Option Bytes)
  | none => pure (none, none)
  | some f =>
    match f.data with
    | none => .ub .nullDeref
    | some d => do
      let s ← cstrAt d
      pure (some s, f.ruleDefinition)

/-- ad_block_client_wrap.cc:284-324 `findMatchingFilters` -/
def Client.nodeFind {E} (c : Client E) (url : Bytes) (option : Mask) (page : Option Bytes) : Res FoundData := do
  let found ← c.findMatchingFilters url option (some (pageArgument page))
  let (filter, orig) ← foundTexts found.filter
  let (exception, exceptionOrig) ← foundTexts found.exception
  pure { isMatch := found.block, matchingFilter := filter, matchingOrigRule := orig,
         matchingExceptionFilter := exception, matchingExceptionOrigRule := exceptionOrig }

end AdBlock
