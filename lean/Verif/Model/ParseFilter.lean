import Verif.Model.Fingerprint
import Verif.Model.Filter
/-
Parsing of one filter rule.  Models ad_block_client.cc:176-193 (`getFingerprint` of a
filter) and ad_block_client.cc:224-470 (`parseFilter`).

The memory `parseFilter` sees is the text of the line `[input, end)` followed by the byte
at `end`, the terminator `t`.  In `AdBlockClient::parse` (1143-1145, 1387-1389) it is NUL,
CR or LF; in the public overload (212-222) it is NUL.
-/
namespace AdBlock

/-- ad_block_client.cc:224-232 `FilterParseState` -/
inductive FPState where
  | start | pastWhitespace | oneBar | oneAt | data | dataOnly
deriving DecidableEq, Repr

/-- ad_block_client.cc:38 `kMaxLineLength` -/
def kMaxLineLength : Nat := 2048

/-- The local variables of the loop of `parseFilter` (ad_block_client.cc:242-248) other
than `p`: the state, the filter so far, `data[0..i)`, and the offsets from `input` of
`filterRuleStart` and `filterRuleEndPos`. -/
structure PLocals where
  st : FPState := .start
  f : Filter := {}
  data : Bytes := []
  ruleStart : Nat := 0
  ruleEnd : Nat := 0
deriving DecidableEq, Repr

/-- How the loop ends: an early `return`, or falling out of it. -/
inductive LoopOut where
  | ret (f : Filter)
  | fin (s : PLocals)
deriving DecidableEq, Repr

/-- `f->filterType = f->filterType | m` -/
def Filter.addType (f : Filter) (m : Mask) : Filter := { f with filterType := f.filterType ||| m }

/-- ad_block_client.cc:421-424 at the end of the loop body: `data[i] = *p; i++; ...`. -/
def PLocals.push (s : PLocals) (c : Byte) : PLocals :=
  { s with data := s.data ++ [c], ruleEnd := s.ruleEnd + 1 }

/-- ad_block_client.cc:370-374 and 398-402: `if (i != 0) { f->domainList = ...; i = 0; }` -/
def PLocals.takeDomains (s : PLocals) : PLocals :=
  if s.data.length ≠ 0 then { s with f := { s.f with domainList := some s.data }, data := [] } else s

/-- ad_block_client.cc:278-286: the host of a host anchored rule; `p` is the text just
after the second bar. -/
def anchoredHost (p : Bytes) : Bytes :=
  let len := findFirstSeparatorChar p
  let len := if len > 0 && p.getD (len - 1) 0 == ch%'|' then len - 1 else len
  p.take len

/-- `c == '\0' || c == '$' || isEndOfLine(c)` -/
def endsHost (c : Byte) : Bool := c == 0 || c == ch%'$' || isEndOfLine c

/-- ad_block_client.cc:288-294: is the rule host only? `p` is the text after the second
bar, `len` the length of the host. -/
def hostOnlyCheck (p : Bytes) (t : Byte) (len : Nat) : Res Bool := do
  let a ← rd (p ++ [t]) len
  if a == ch%'^' then do
    let b ← rd (p ++ [t]) (len + 1)
    pure (endsHost b || endsHost a)
  else pure (endsHost a)

/-- ad_block_client.cc:270-296: the second of two leading bars; `p` as above. -/
def secondBar (s : PLocals) (p : Bytes) (t : Byte) : Res PLocals := do
  let host := anchoredHost p
  let f := { s.f.addType FTHostAnchored with host := some host }
  let hostOnly ← hostOnlyCheck p t host.length
  pure { s with
    st := .data
    ruleEnd := s.ruleEnd + 1
    f := if hostOnly then f.addType FTHostOnly else f }

/-- ad_block_client.cc:341-364: is the line a regular expression, and the resulting
filter.  `i` is `s.data.length`. -/
def regexFilter (line : Bytes) (preserve : Bool) (s : PLocals) : Option Filter :=
  if line.getD (line.length - 1) 0 == ch%'/' && line.length > 1 then
    let i := s.data.length
    let text := (line.drop (i + 1)).take (line.length - i - 2)
    some { s.f with
      data := some (cstr text)
      ruleDefinition := if preserve then some text else s.f.ruleDefinition
      filterType := FTRegex }
  else none

/-- `parseState == FPStart || parseState == FPPastWhitespace` -/
def FPState.fresh (st : FPState) : Bool := st == .start || st == .pastWhitespace

/-- ad_block_client.cc:258-261: a first bar not followed by a second one -/
def PLocals.bar (s : PLocals) (c : Byte) : PLocals :=
  if s.st = .oneBar ∧ c ≠ ch%'|' then { s with st := .data, f := s.f.addType FTLeftAnchored } else s

/-- ad_block_client.cc:381-386: a `$` that starts options; `o` is what follows it. -/
def PLocals.dollar (s : PLocals) (line o : Bytes) : PLocals :=
  { s with
    f := s.f.parseOptions o
    ruleEnd := s.ruleEnd + ((line.drop s.ruleEnd).takeWhile fun c => c != 0 && !isEndOfLine c).length }

/-- What an iteration of the loop does: leave the loop, or go on after one or two
characters. -/
inductive Next where
  | stop (o : LoopOut)
  | one (s : PLocals)
  | two (s : PLocals)

/-- ad_block_client.cc:263-419: the `switch` of the loop body; `c` is `*p`, `p` what
follows it up to `end`. -/
def parseChar (line : Bytes) (t : Byte) (preserve : Bool) (c : Byte) (p : Bytes) (s : PLocals) : Res Next :=
  if c = ch%'|' then
    -- 264-305
    if s.st.fresh then .ok (.one { s with st := .oneBar, ruleEnd := s.ruleEnd + 1 })
    else if s.st = .oneBar then Next.one <$> secondBar s p t
    else .ok (.one { s with st := .data, f := s.f.addType FTRightAnchored, ruleEnd := s.ruleEnd + 1 })
  else if c = ch%'@' then
    -- 306-320
    if s.st.fresh then .ok (.one { s with st := .oneAt, ruleEnd := s.ruleEnd + 1 })
    else if s.st = .oneAt then
      .ok (.one { s with
        st := .pastWhitespace, f := { s.f with filterType := FTException }, ruleEnd := s.ruleEnd + 1 })
    else .ok (.one (s.push c))
  else if c = ch%'!' ∨ c = ch%'[' then
    -- 321-328
    if s.st.fresh then .ok (.stop (.ret { s.f with filterType := FTComment }))
    else .ok (.one (s.push c))
  else if c = 13 ∨ c = 10 ∨ c = 9 ∨ c = 32 then
    -- 329-340
    if s.st = .start then
      .ok (.one { s with ruleStart := s.ruleStart + 1, ruleEnd := s.ruleEnd + 1 })
    else .ok (.one (s.push c))
  else if c = ch%'/' then
    -- 341-364
    if s.st.fresh then
      match regexFilter line preserve s with
      | some f => .ok (.stop (.ret f))
      | none => .ok (.one ({ s with st := .data }.push c))
    else .ok (.one (s.push c))
  else if c = ch%'$' then
    -- 365-386
    if p.head? = some ch%'$' then
      .ok (.two { s.takeDomains with
        st := .dataOnly, f := { s.takeDomains.f with filterType := FTHTMLFiltering }
        ruleEnd := s.takeDomains.ruleEnd + 2 })
    else .ok (.stop (.fin (s.dollar line p)))
  else if c = ch%'#' then
    -- 387-415
    if s.st.fresh ∧ p.head? = some 32 then .ok (.stop (.ret { s.f with filterType := FTComment }))
    else if p.head? = some ch%'#' ∨ p.head? = some ch%'@' then
      .ok (.two { s.takeDomains with
        st := .dataOnly
        f := { s.takeDomains.f with
          filterType := if p.head? = some ch%'#' then FTElementHiding else FTElementHidingException } })
    else .ok (.one ({ s with st := .data }.push c))
  else
    -- 416-418
    .ok (.one ({ s with st := .data }.push c))

/-- ad_block_client.cc:257-424: one iteration of the loop -/
def parseStep (line : Bytes) (t : Byte) (preserve : Bool) (c : Byte) (p : Bytes) (s : PLocals) : Res Next :=
  if s.st = .dataOnly then .ok (.one (s.push c)) else parseChar line t preserve c p (s.bar c)

/-- ad_block_client.cc:251-425, the loop.  `rest` is the text from `p` to `end`, `pos` is
`p - input`. -/
def parseLoop (line : Bytes) (t : Byte) (preserve : Bool) :
    (rest : Bytes) → (pos : Nat) → PLocals → Res LoopOut
  | [], _, s => .ok (.fin s)
  | c :: p, pos, s =>
    if pos ≥ kMaxLineLength - 1 then .ok (.ret s.f)
    else (parseStep line t preserve c p s) >>= fun n =>
      match n with
      | .stop o => .ok o
      | .one s' => parseLoop line t preserve p (pos + 1) s'
      | .two s' =>
        match p with
        | [] => .ok (.fin s')
        | _ :: p' => parseLoop line t preserve p' (pos + 2) s'

/-- ad_block_client.cc:176-193 `getFingerprint(buffer, f)`. -/
def getFingerprint (bad : List Bytes) (f : Filter) : Res (Option Bytes) :=
  if has f.filterType FTRegex then pure none
  else do
    let first ←
      if has f.filterType FTHostAnchored then
        match f.host, f.data with
        | none, _ => .ub .nullDeref
        | some host, none => if host.length = 0 then pure none else .ub .nullDeref
        | some host, some d => getFingerprintStr bad <$> cstrAt (d.drop host.length)
      else pure none
    match first with
    | some fp => pure (some fp)
    | none =>
      match f.data with
      | none => pure none
      | some d => getFingerprintStr bad <$> cstrAt d

/-- What `parseFilter` does to the structures passed to it. -/
inductive Effect where
  | none
  /-- `hostAnchoredExceptionHashSet->Add(*f)` -/
  | addHostException
  /-- `hostAnchoredHashSet->Add(*f)` -/
  | addHost
  /-- `exceptionBloomFilter->add(fp)` -/
  | addExceptionFingerprint (fp : Bytes)
  /-- `bloomFilter->add(fp)` -/
  | addFingerprint (fp : Bytes)
deriving DecidableEq, Repr

/-- ad_block_client.cc:427-469, after the loop.  `full` tells whether the bloom filters
and hash sets are passed (second pass of `parse`) or null (first pass). `simpleCosmeticFilters`
(446-453) is left out: it is local to `parse` and never read. -/
def finishFilter (bad : List Bytes) (line : Bytes) (preserve full : Bool) (s : PLocals) :
    Res (Filter × Effect) :=
  if s.st = .start then pure ({ s.f with filterType := FTEmpty }, .none)
  else
    let f := if preserve then
      { s.f with ruleDefinition := some ((line.drop s.ruleStart).take (s.ruleEnd - s.ruleStart)) }
      else s.f
    let f := { f with data := some (cstr s.data) }
    if f.filterType = FTElementHiding then pure (f, .none)
    else if f.filterType = FTElementHidingException then pure (f, .none)
    else if full && has f.filterType FTException && has f.filterType FTHostOnly then
      pure (f, .addHostException)
    else if full && has f.filterType FTHostOnly then pure (f, .addHost)
    else do
      match ← getFingerprint bad f with
      | none => pure (f, .none)
      | some fp =>
        if full && has f.filterType FTException then pure (f, .addExceptionFingerprint fp)
        else if full then pure (f, .addFingerprint fp)
        else pure (f, .none)

/-- ad_block_client.cc:235-470 `parseFilter(input, end, f, ...)` on a default constructed
`f`. -/
def parseFilter (bad : List Bytes) (line : Bytes) (t : Byte) (preserve full : Bool) :
    Res (Filter × Effect) := do
  match ← parseLoop line t preserve line 0 {} with
  | .ret f => pure (f, .none)
  | .fin s => finishFilter bad line preserve full s

end AdBlock
