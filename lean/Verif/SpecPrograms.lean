import Verif.Model.Programs
import Verif.SpecSaved
import Verif.SpecScripts
import Verif.SpecCheck
/-
What the programs main.cc and perf.cc, and data files made of several lists, are measured by.
-/
namespace AdBlock.Spec
open AdBlock

/-- The texts (strings without NUL) have these rules. -/
def TextsOf (texts : List Bytes) (rss : List (List RuleText)) : Prop :=
  Pointwise (fun t rs => 0 ∉ t ∧ ListOf (lines t) rs) texts rss

/-- The texts survive being saved, and have 20 MB at most. -/
def SavableTexts (texts : List Bytes) (rss : List (List RuleText)) : Prop :=
  Pointwise SavableList texts rss ∧ (texts.map (·.length + 1)).sum ≤ 20000000

/-- The client judges every web request (to which no known defect applies) as the rules say. -/
def GoesBy {E : Env} (c : Client E) (rs : List RuleText) : Prop :=
  ∀ q : Request, q.Web → Clear E.bad rs q → E.fp.rolls q.url → ∃ o, c.query q.url q.context q.domain = .ok o ∧ (o.block = true ↔ Blocked rs q)

/-- A client made from these data goes by the rules. -/
def ServesAs (E : Env) (data : Bytes) (rs : List RuleText) : Prop :=
  ∃ d : Client E, makeClientFromData E data = .ok (some d) ∧ GoesBy d rs

/-- white space: blanks, tabs, line feeds and the like -/
def Space (c : Byte) : Prop := c ∈ [32, 9, 10, 11, 12, 13]

/-- The words of a text, with white space between them and around them. -/
inductive WordsOf : Bytes → List Bytes → Prop
  | none {s} : (∀ c ∈ s, Space c) → WordsOf s []
  | last {s w} : (∀ c ∈ s, Space c) → w ≠ [] → (∀ c ∈ w, ¬ Space c) → WordsOf (s ++ w) [w]
  | cons {s w c t ws} : (∀ c ∈ s, Space c) → w ≠ [] → (∀ c ∈ w, ¬ Space c) → Space c → WordsOf t ws →
      WordsOf (s ++ w ++ c :: t) (w :: ws)

/-- The files of the programs. -/
structure FilesAre (readFile : Bytes → Option Bytes) (t : SampleTexts) : Prop where
  easyList : readFile bs%"./test/data/easylist.txt" = some t.easyList
  easyPrivacy : readFile bs%"./test/data/easyprivacy.txt" = some t.easyPrivacy
  ublockUnbreak : readFile bs%"./test/data/ublock-unbreak.txt" = some t.ublockUnbreak
  braveUnbreak : readFile bs%"./test/data/brave-unbreak.txt" = some t.braveUnbreak
  spam404 : readFile bs%"./test/data/spam404-main-blacklist.txt" = some t.spam404
  disconnectMalware : readFile bs%"./test/data/disconnect-simple-malware.txt" = some t.disconnectMalware

/-- the lists about advertising -/
def adTexts (t : SampleTexts) : List Bytes := [t.easyList, t.easyPrivacy, t.ublockUnbreak, t.braveUnbreak]

/-- the lists about malware -/
def malwareTexts (t : SampleTexts) : List Bytes := [t.spam404, t.disconnectMalware]

/-- the requests main.cc asks about -/
def adRequests : List Request :=
  [ { host := bs%"pagead2.googlesyndication.com", rest := bs%"/pagead/show_ads.js", domain := some bs%"slashdot.org" },
    { host := bs%"tpc.googlesyndication.com", rest := bs%"/safeframe/1-0-2/html/container.html", domain := some bs%"slashdot.org" },
    { host := bs%"www.googletagservices.com", rest := bs%"/tag/js/gpt_mobile.js", domain := some bs%"slashdot.org" },
    { host := bs%"www.brianbondy.com", domain := some bs%"slashdot.org" } ]

def malwareRequests : List Request :=
  [ { host := bs%"freexblcode.com", rest := bs%"/test", domain := some bs%"slashdot.org" },
    { scheme := bs%"https", host := bs%"malware-check.disconnect.me", domain := some bs%"slashdot.org" },
    { host := bs%"www.brianbondy.com", domain := some bs%"slashdot.org" } ]

end AdBlock.Spec
