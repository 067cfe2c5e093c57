import Verif.Model.ListTables
import Verif.Model.Scripts
/-
Finding a list by its UUID, the run of scripts/generateDataFiles.js over all lists, and the manifest
files.  A download is a parameter: a function from addresses to the bodies of the responses, `none`
for an error or a status other than 200.  A promise is its outcome, `none` if it is rejected.
-/
namespace AdBlock

/-- lib/util.js:92-116 `makeAdBlockClientFromListURL` with a single address: the client, `none` if the promise
is rejected -/
def makeClientFromListURL (E : Env) (fetch : Bytes → Option Bytes) (filter : Option (Bytes → Bytes)) (keepRuleText : Bool)
    (url : Bytes) : Option (Res (Client E)) :=
  (fetch url).map fun body => makeClientFromStrings E keepRuleText [listURLText filter body]

/-- lib/util.js:138-153, the list with this UUID -/
def findList (uuid : Bytes) : Option FilterList :=
  match defaultLists.find? (fun l => l.uuid == uuid) with
  | some l => some l
  | none =>
    match regionLists.find? (fun l => l.uuid == uuid) with
    | some l => some l
    | none => malwareLists.find? (fun l => l.uuid == uuid)

/-- lib/util.js:138-153 `makeAdBlockClientFromListUUID` -/
def makeClientFromListUUID (E : Env) (fetch : Bytes → Option Bytes) (keepRuleText : Bool) (uuid : Bytes) :
    Option (Res (Client E)) :=
  match findList uuid with
  | none => none
  | some list => makeClientFromListURL E fetch (getListFilterFunction uuid) keepRuleText list.url

/-- The bodies of all responses; `none` if one of them is an error (`Promise.all`). -/
def fetchAll (fetch : Bytes → Option Bytes) : List FilterList → Option (List (Bytes × Bytes))
  | [] => some []
  | l :: ls =>
    match fetch l.url, fetchAll fetch ls with
    | some body, some bodies => some ((l.uuid, body) :: bodies)
    | _, _ => none

/-- The files a run of the script has written, in this order, and whether it went through to the end. -/
structure ScriptRun where
  files : List (Bytes × DataFile)
  finished : Bool

/-- scripts/generateDataFiles.js:58-69 `generateDataFilesForAllRegions`: one file after the other, up to the first
error -/
def generateRegions (E : Env) (fetch : Bytes → Option Bytes) (braveUnbreakBody : Bytes) (sites : List Bytes) :
    List FilterList → Res ScriptRun
  | [] => pure ⟨[], true⟩
  | region :: regions =>
    match fetch region.url with
    | none => pure ⟨[], false⟩
    | some body => do
      let file ← generateDataFile E (regionTexts none body braveUnbreakBody) sites
      let rest ← generateRegions E fetch braveUnbreakBody sites regions
      pure ⟨(region.uuid ++ bs%".dat", file) :: rest.files, rest.finished⟩

/-- scripts/generateDataFiles.js:107-116, the whole run: the default lists, the malware lists, the regions -/
def generateDataFiles (E : Env) (fetch : Bytes → Option Bytes) (braveUnbreakBody : Bytes) (sites : List Bytes) :
    Res ScriptRun :=
  match fetchAll fetch defaultLists with
  | none => pure ⟨[], false⟩
  | some bodies => do
    let file ← generateDataFile E (listTexts bodies) sites
    match fetchAll fetch malwareLists with
    | none => pure ⟨[(bs%"ABPFilterParserData.dat", file)], false⟩
    | some bodies => do
      let file2 ← generateDataFile E (listTexts bodies) sites
      let rest ← generateRegions E fetch braveUnbreakBody sites regionLists
      pure ⟨(bs%"ABPFilterParserData.dat", file) :: (bs%"SafeBrowsingData.dat", file2) :: rest.files, rest.finished⟩

/-- What is in the file `bad_fingerprints.h` after the run: every call of `generateDataFileFromString`
writes it anew (scripts/generateDataFiles.js:28); `none` if it was not written -/
def ScriptRun.badFingerprints (r : ScriptRun) : Option (List Bytes) :=
  match r.files.getLast? with
  | none => none
  | some (_, file) => file.badFps

/-- ad_block_client_wrap.cc:88-103 `GenerateManifestFile`: the text of the file -/
def manifestText (name base64PublicKey : Bytes) : Bytes :=
  bs%"{\n" ++
  bs%"  \"description\": \"Brave Ad Block Updater extension\",\n" ++
  bs%"  \"key\": \"" ++ base64PublicKey ++ bs%"\",\n" ++
  bs%"  \"manifest_version\": 2,\n" ++
  bs%"  \"name\": \"Brave Ad Block Updater (" ++ name ++ bs%")\",\n" ++
  bs%"  \"version\": \"0.0.0\"\n" ++
  bs%"}\n"

/-- ad_block_client_wrap.cc:629-637 `generateDefaultManifestFile`: the name of the file and its text -/
def defaultManifest (dir : Bytes) : Bytes × Bytes :=
  (dir ++ bs%"/default-manifest.json", manifestText bs%"Default" defaultBase64PublicKey)

/-- ad_block_client_wrap.cc:639-653 `generateRegionalManifestFiles` -/
def regionalManifests (dir : Bytes) : List (Bytes × Bytes) :=
  regionLists.map fun entry =>
    (dir ++ bs%"/" ++ entry.uuid ++ bs%"-manifest.json", manifestText entry.title entry.base64PublicKey)

end AdBlock
