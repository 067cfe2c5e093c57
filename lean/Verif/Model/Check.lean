import Verif.Model.Lists
import Verif.Model.NodeApi
/-
The whole of scripts/check.js: which client it makes from its arguments, what it prints and what it
writes.  Downloads and files are parameters.  Left out: options which are given without their value, the
parameters and times that are printed.
-/
namespace AdBlock

/-- scripts/check.js:32-46: the arguments of the program; `none` if an option is not given -/
structure CheckArgs where
  uuid : Option Bytes := none
  dat : Option Bytes := none
  filter : Option Bytes := none
  filterPath : Option Bytes := none
  http : Option Bytes := none
  host : Option Bytes := none
  location : Option Bytes := none
  output : Option Bytes := none
  list : Option Bytes := none
  discover : Bool := false
  stats : Bool := false
  cache : Bool := false
  filterOption : Option Bytes := none

/-- What the program finds outside: the bodies of responses, `none` for an error or a status other than 200;
the contents of files, `none` if a file cannot be read. -/
structure World where
  fetch : Bytes → Option Bytes
  readFile : Bytes → Option Bytes

/-- How JavaScript takes an option for a condition: the empty string counts as false. -/
def whenTruthy : Option Bytes → Option Bytes
  | none => none
  | some s => if s = [] then none else some s

/-- scripts/check.js:50-53 `keepRuleText` -/
def CheckArgs.keepRuleText (a : CheckArgs) : Bool := a.discover && (whenTruthy a.dat).isNone

/-- the bodies of all responses, `none` if one of them is an error (`Promise.all`) -/
def fetchBodies (fetch : Bytes → Option Bytes) : List Bytes → Option (List Bytes)
  | [] => some []
  | url :: urls =>
    match fetch url, fetchBodies fetch urls with
    | some body, some bodies => some (body :: bodies)
    | _, _ => none

/-- lib/util.js:92-105 `makeAdBlockClientFromListURL` with an array of addresses -/
def makeClientFromListURLs (E : Env) (fetch : Bytes → Option Bytes) (filter : Option (Bytes → Bytes)) (keepRuleText : Bool)
    (urls : List Bytes) : Option (Res (Client E)) :=
  (fetchBodies fetch urls).map fun bodies => makeClientFromStrings E keepRuleText [listURLsText filter bodies]

/-- lib/util.js:37-49 `makeAdBlockClientFromDATFile`.  It does not look at the result of `deserialize`; the client
after a `deserialize` that returned false is not followed here (see C80), and this outcome is `ok none`. -/
def makeClientFromDATFile (E : Env) (readFile : Bytes → Option Bytes) (path : Bytes) : Option (Res (Option (Client E))) :=
  (readFile path).map fun data => makeClientFromData E data

/-- lib/util.js:164-174 `makeAdBlockClientFromFilePath` with a single path -/
def makeClientFromFilePath (E : Env) (readFile : Bytes → Option Bytes) (keepRuleText : Bool) (path : Bytes) :
    Option (Res (Client E)) :=
  (readFile path).map fun text => makeClientFromStrings E keepRuleText [text]

/-- a client that is certainly there -/
def certain {A : Type} (p : Option (Res A)) : Option (Res (Option A)) := p.map fun r => some <$> r

/-- scripts/check.js:55-78: the client; `none` if the promise is rejected -/
def checkClient (E : Env) (w : World) (a : CheckArgs) : Option (Res (Option (Client E))) :=
  if ((whenTruthy a.host).isSome && ((whenTruthy a.location).isSome || (whenTruthy a.list).isSome)) || a.stats then
    match whenTruthy a.uuid with
    | some uuid => certain (makeClientFromListUUID E w.fetch a.keepRuleText uuid)
    | none =>
    match whenTruthy a.dat with
    | some path => makeClientFromDATFile E w.readFile path
    | none =>
    match whenTruthy a.http with
    | some url => certain (makeClientFromListURL E w.fetch none a.keepRuleText url)
    | none =>
    match whenTruthy a.filter with
    | some text => certain (some (makeClientFromStrings E a.keepRuleText [text]))
    | none =>
    match whenTruthy a.filterPath with
    | some path => certain (makeClientFromFilePath E w.readFile a.keepRuleText path)
    | none => certain (makeClientFromListURLs E w.fetch none a.keepRuleText (defaultLists.map (·.url)))
  else none

/-- what the program prints -/
inductive CheckOutput where
  | error
  | parsing (s : ParsingStats)
  | verdict (block : Bool) (s : Stats)
  | found (f : FoundData) (s : Stats)
  | counts (n : CheckCounts) (s : Stats)

/-- what a run prints, and the file it writes -/
structure CheckRun where
  output : CheckOutput
  written : Option (Bytes × Bytes) := none

/-- The page as it reaches the client: `commander.host` -/
def CheckArgs.page (a : CheckArgs) : Bytes := pageArgument a.host

/-- scripts/check.js:85-128: the questions, and the client afterwards.  `none` if the list of sites cannot be
read.  `readSiteList` (lib/util.js:200-201) splits the file at line feeds.  (`findMatchingFilters` does not change the statistics,
see `Client.findMatchingFilters`.) -/
def Client.checkQuestions {E} (c : Client E) (w : World) (a : CheckArgs) : Res (Option (CheckOutput × Client E)) :=
  let option := int32Argument (checkFilterOption a.filterOption)
  match whenTruthy a.location with
  | some url =>
    if a.discover then do
      let f ← c.nodeFind url option a.host
      pure (some (.found f c.stats, c))
    else do
      let (b, c) ← c.nodeMatches url option a.host
      pure (some (.verdict b c.stats, c))
  | none =>
    match a.list.bind w.readFile with
    | none => pure none
    | some text =>
      if a.discover then do
        let n ← c.checkListDiscover option a.page a.cache (jsSplit text) [] {}
        pure (some (.counts n c.stats, c))
      else do
        let (n, c) ← c.checkList option a.page (jsSplit text) {}
        pure (some (.counts n c.stats, c))

/-- scripts/check.js:80-135: the whole run.  `ok none` if it goes on with a client which is not modelled. -/
def check (E : Env) (w : World) (a : CheckArgs) : Res (Option CheckRun) :=
  match checkClient E w a with
  | none => pure (some { output := .error })
  | some r => do
    match ← r with
    | none => pure none
    | some c =>
      if a.stats then pure (some { output := .parsing c.getParsingStats })
      else do
        match ← c.checkQuestions w a with
        | none => pure (some { output := .error })
        | some (out, c) =>
          match whenTruthy a.output with
          | none => pure (some { output := out })
          | some path => do
            let s ← c.serialize true true
            pure (some { output := out, written := some (path, s.buffer) })

end AdBlock
