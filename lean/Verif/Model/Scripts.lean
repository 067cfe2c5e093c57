import Verif.Model.JsLib
import Verif.Model.Serialize
import Verif.Model.Wrap
/-
The programs and scripts around the library: scripts/generateDataFiles.js, scripts/check.js,
main.cc, perf.cc and the header with bad fingerprints.  Downloads, files and console output are
left out: contents of files and responses are parameters, and what is written to a file is a
result.
-/
namespace AdBlock

/-- filter.h:37 `FONoFilterOption` -/
def noFilterOption : Mask := 0

/-- Asking about several addresses in turn (`forEach` and `for_each` in the programs below), always for
the same type of resource and page: the answers and the client afterwards. -/
def Client.askAll {E} (option : Mask) (page : Bytes) : Client E → List Bytes → Res (List Bool × Client E)
  | c, [] => pure ([], c)
  | c, site :: sites => do
    let (b, c) ← c.nodeMatches site option (some page)
    let (bs, c) ← c.askAll option page sites
    pure (b :: bs, c)

/-- scripts/generateDataFiles.js:88-102 `checkSiteList`, without the statistics -/
def Client.checkSiteList {E} (c : Client E) (sites : List Bytes) : Res (Client E) := do
  let (_, c) ← c.askAll noFilterOption bs%"slashdot.org" sites
  pure c

/-- What scripts/generateDataFiles.js writes: the file with data, and the fingerprints given to
`generateBadFingerprintsHeader`. -/
structure DataFile where
  data : Bytes
  badFps : Option (List Bytes)

/-- scripts/generateDataFiles.js:17-34 `generateDataFileFromString` with an array of strings.  `sites` is
`top500URLList20k`.  Node's `serialize` leaves out cosmetic and HTML rules (ad_block_client_wrap.cc:326-350). -/
def generateDataFile (E : Env) (texts : List Bytes) (sites : List Bytes) : Res DataFile := do
  let client ← makeClientFromStrings E false texts
  let client ← client.enableBadFingerprintDetection.checkSiteList sites
  let s ← client.serialize true true
  pure { data := s.buffer, badFps := client.badFps }

/-- scripts/generateDataFiles.js:36-56 `generateDataFileFromURL`, given the body of a successful response and
the contents of `braveUnbreakPath`: the strings the data file is made of -/
def regionTexts (filter : Option (Bytes → Bytes)) (body braveUnbreakBody : Bytes) : List Bytes :=
  [match filter with | none => body | some f => f body, braveUnbreakBody]

/-- scripts/generateDataFiles.js:71-83 `generateDataFilesForList`, with the `uuid` of each list and the body of
the response: the strings the data file is made of (lib/util.js:176-194 `getListBufferFromURL` does the
same as `getSingleListDataFromSingleURL`) -/
def listTexts (lists : List (Bytes × Bytes)) : List Bytes :=
  lists.map fun (uuid, body) => singleListData (getListFilterFunction uuid) body

/-- lib/util.js:37-49 `makeAdBlockClientFromDATFile`, given the contents of the file.  `none` means that
`deserialize` returned false; the program does not look at this, but the client is not followed in
this case (see C80). -/
def makeClientFromData (E : Env) (data : Bytes) : Res (Option (Client E)) := (Client.fresh E).deserialize data

/-- What main.cc:40-93 `checkForClient` prints and writes: the answers of the client, the file, and the
answers of the client that has loaded the data (`none` if they cannot be loaded). -/
structure Checked where
  first : List Bool
  data : Bytes
  second : Option (List Bool)

/-- main.cc:40-93 `checkForClient`.  The data are loaded twice. -/
def Client.checkForClient {E} (c : Client E) (urls : List Bytes) : Res Checked := do
  let (first, c) ← c.askAll noFilterOption bs%"slashdot.org" urls
  let s ← c.serialize true true
  match ← (Client.fresh E).deserialize s.buffer with
  | none => pure ⟨first, s.buffer, none⟩
  | some client2 =>
    match ← client2.deserialize s.buffer with
    | none => pure ⟨first, s.buffer, none⟩
    | some client2 => do
      let (second, _) ← client2.askAll noFilterOption bs%"slashdot.org" urls
      pure ⟨first, s.buffer, some second⟩

/-- `matchCount` and `skipCount` in scripts/check.js:92-93, `numBlocks` and `numSkips` in perf.cc:45-46 -/
structure CheckCounts where
  matching : Nat := 0
  skipped : Nat := 0
deriving DecidableEq, Repr

/-- scripts/check.js:115-121, without `--discover`; also perf.cc:48-56 -/
def Client.checkList {E} (option : Mask) (host : Bytes) : Client E → List Bytes → CheckCounts → Res (CheckCounts × Client E)
  | c, [], n => pure (n, c)
  | c, site :: sites, n => do
    let (b, c) ← c.nodeMatches site option (some host)
    c.checkList option host sites (if b then { n with matching := n.matching + 1 } else { n with skipped := n.skipped + 1 })

/-- How JavaScript takes the result of `findMatchingFilters` for a condition: every object counts as
true. -/
def FoundData.truthy (_ : FoundData) : Bool := true

/-- scripts/check.js:95-113, with `--discover` and, if `cache` is set, `--cache`; `m` is the map, the last
value set for a site first. -/
def Client.checkListDiscover {E} (c : Client E) (option : Mask) (host : Bytes) (cache : Bool) :
    List Bytes → List (Bytes × Bool) → CheckCounts → Res CheckCounts
  | [], _, n => pure n
  | site :: sites, m, n => do
    match if cache then m.lookup site else none with
    | some true => c.checkListDiscover option host cache sites m { n with matching := n.matching + 1 }
    | some false => c.checkListDiscover option host cache sites m { n with skipped := n.skipped + 1 }
    | none =>
      let found ← c.nodeFind site option (some host)
      if found.truthy then
        c.checkListDiscover option host cache sites ((site, true) :: m) { n with matching := n.matching + 1 }
      else
        c.checkListDiscover option host cache sites ((site, false) :: m) { n with skipped := n.skipped + 1 }

/-- bad_fingerprint.h:75-97 `generateHeader` (with `PERF_STATS`): the text of the file, given the strings in
the set in the order of its single bucket -/
def badFingerprintsHeader (fps : List Bytes) : Bytes :=
  bs%"#pragma once\n" ++ bs%"/**\n  *\n  * Auto generated bad filters\n  */\n" ++
  bs%"const char *badFingerprints[] = {\n" ++
  fps.flatMap (fun fp => bs%"\"" ++ fp ++ bs%"\",\n") ++
  bs%"};\n\n" ++ bs%"const char *badSubstrings[] = {\"http\", \"www\" };\n"

/-- ad_block_client_wrap.cc:618-627 `generateBadFingerprintsHeader`: the set is not there unless the
detection of bad fingerprints has been enabled. -/
def Client.generateBadFingerprintsHeader {E} (c : Client E) : Res Bytes :=
  match c.badFps with
  | none => .ub .nullDeref
  | some fps => pure (badFingerprintsHeader fps)

end AdBlock
