import Verif.Model.Scripts
/-
The programs main.cc and perf.cc as a whole.  Files are a parameter, `none` for a file that cannot be
read; the programs then end with an exception.  Times are left out.
-/
namespace AdBlock

/-- several calls of `parse` in turn -/
def Client.parseAll {E} (c : Client E) (texts : List Bytes) : Res (Client E) := texts.foldlM (fun c text => c.parse text false) c

/-- The files both programs read: main.cc:96-106 and perf.cc:72-83 -/
structure SampleTexts where
  easyList : Bytes
  easyPrivacy : Bytes
  ublockUnbreak : Bytes
  braveUnbreak : Bytes
  spam404 : Bytes
  disconnectMalware : Bytes

/-- main.cc:96-106 and perf.cc:72-83 (in perf.cc the order of `brave-unbreak.txt` and `ublock-unbreak.txt` is the reverse,
which makes no difference) -/
def sampleTexts (readFile : Bytes → Option Bytes) : Option SampleTexts := do
  let easyList ← readFile bs%"./test/data/easylist.txt"
  let easyPrivacy ← readFile bs%"./test/data/easyprivacy.txt"
  let ublockUnbreak ← readFile bs%"./test/data/ublock-unbreak.txt"
  let braveUnbreak ← readFile bs%"./test/data/brave-unbreak.txt"
  let spam404 ← readFile bs%"./test/data/spam404-main-blacklist.txt"
  let disconnectMalware ← readFile bs%"./test/data/disconnect-simple-malware.txt"
  pure { easyList, easyPrivacy, ublockUnbreak, braveUnbreak, spam404, disconnectMalware }

/-- main.cc:109-113 and perf.cc:92-95 -/
def SampleTexts.ads (t : SampleTexts) : List Bytes := [t.easyList, t.easyPrivacy, t.ublockUnbreak, t.braveUnbreak]

/-- main.cc:125-127 and perf.cc:106-108 -/
def SampleTexts.malware (t : SampleTexts) : List Bytes := [t.spam404, t.disconnectMalware]

/-- main.cc:114-121 `checkVector` -/
def adUrls : List Bytes :=
  [ bs%"http://pagead2.googlesyndication.com/pagead/show_ads.js",
    bs%"http://tpc.googlesyndication.com/safeframe/1-0-2/html/container.html",
    bs%"http://www.googletagservices.com/tag/js/gpt_mobile.js",
    bs%"http://www.brianbondy.com" ]

/-- main.cc:128-131 `checkVector2` -/
def malwareUrls : List Bytes :=
  [ bs%"http://freexblcode.com/test", bs%"https://malware-check.disconnect.me", bs%"http://www.brianbondy.com" ]

/-- main.cc:95-135 `main`: what the two calls of `checkForClient` print and write, to `./ABPFilterClientData.dat` and to
`./SafeBrowsingData.dat`.  (Files that cannot be written are not considered.) -/
def sampleMain (E : Env) (readFile : Bytes → Option Bytes) : Option (Res (Checked × Checked)) := do
  let t ← sampleTexts readFile
  pure do
    let adBlockClient ← (Client.fresh E).parseAll t.ads
    let ads ← adBlockClient.checkForClient adUrls
    let malwareClient ← (Client.fresh E).parseAll t.malware
    let malware ← malwareClient.checkForClient malwareUrls
    pure (ads, malware)

/-- perf.cc:36-39, `istream_iterator<std::string>`: the words of the text; the first argument is the word that has
begun -/
def wordsFrom : Bytes → Bytes → List Bytes
  | w, [] => if w = [] then [] else [w]
  | w, c :: s =>
    if isSpace c then (if w = [] then wordsFrom [] s else w :: wordsFrom [] s)
    else wordsFrom (w ++ [c]) s

/-- perf.cc:33-69 `doSiteList`, given the contents of `./test/data/sitelist.txt` -/
def Client.doSiteList {E} (c : Client E) (siteList : Bytes) : Res (CheckCounts × Client E) :=
  c.checkList noFilterOption bs%"brianbondy.com" (wordsFrom [] siteList) {}

/-- what perf.cc prints and writes -/
structure PerfRun where
  adBlock : CheckCounts
  adBlockStats : Stats
  safeBrowsing : CheckCounts
  safeBrowsingStats : Stats
  /-- the file `bad_fingerprints.h` -/
  header : Bytes

/-- perf.cc:71-128 `main`.  The first client writes its data and reads them again; the program does not look at the
result of `deserialize`, and if it is false, the outcome is `ok none`: the state of the client then is
not modelled.  (The list of sites is read before the first client is made here, in the program
afterwards.) -/
def perfMain (E : Env) (readFile : Bytes → Option Bytes) : Option (Res (Option PerfRun)) := do
  let t ← sampleTexts readFile
  let siteList ← readFile bs%"./test/data/sitelist.txt"
  pure do
    let adBlockClient ← (Client.fresh E).parseAll t.ads
    let data ← adBlockClient.serialize true true
    match ← adBlockClient.deserialize data.buffer with
    | none => pure none
    | some adBlockClient => do
      let (adBlock, adBlockClient) ← adBlockClient.doSiteList siteList
      let safeBrowsingClient ← (Client.fresh E).parseAll t.malware
      let (safeBrowsing, safeBrowsingClient) ← safeBrowsingClient.doSiteList siteList
      let allClient ← (Client.fresh E).enableBadFingerprintDetection.parseAll (t.ads ++ t.malware)
      let (_, allClient) ← allClient.doSiteList siteList
      let header ← allClient.generateBadFingerprintsHeader
      pure (some { adBlock, adBlockStats := adBlockClient.stats, safeBrowsing,
                   safeBrowsingStats := safeBrowsingClient.stats, header })

end AdBlock
