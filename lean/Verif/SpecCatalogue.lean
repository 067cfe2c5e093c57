import Verif.Model.Catalogue
import Verif.SpecLists
/-
What `adBlockLists` is measured by.
-/
namespace AdBlock.Spec
open AdBlock

/-- the properties every object has, and what is to be read there -/
def listProperties (l : FilterList) : List (Chars × Bytes) :=
  [ (cs%"uuid", l.uuid), (cs%"listURL", l.url), (cs%"title", l.title), (cs%"supportURL", l.supportUrl),
    (cs%"componentID", l.componentId), (cs%"base64PublicKey", l.base64PublicKey) ]

/-- The object says about the list what is in the tables, in strings whose UTF-8 form is there; `langs` is undefined if
the list is for no particular language; there are no other properties. -/
structure Shows (o : JsObject) (l : FilterList) : Prop where
  texts : ∀ name bytes, (name, bytes) ∈ listProperties l → ∃ s, o.get name = some (.text s) ∧ utf8 s = bytes
  noLanguage : l.langs = [] → o.get cs%"langs" = none
  languages : l.langs ≠ [] → ∃ ls, o.get cs%"langs" = some (.texts ls) ∧ ls.map utf8 = l.langs
  noOther : ∀ name, o.get name ≠ none → name = cs%"langs" ∨ ∃ bytes, (name, bytes) ∈ listProperties l

/-- the default lists: their titles and addresses -/
def defaultCatalogue : List (Chars × Chars) :=
  [ (cs%"EasyList", cs%"https://easylist.to/easylist/easylist.txt"),
    (cs%"EasyPrivacy", cs%"https://easylist.to/easylist/easyprivacy.txt"),
    (cs%"uBlock Unbreak", cs%"https://raw.githubusercontent.com/uBlockOrigin/uAssets/master/filters/unbreak.txt"),
    (cs%"Brave Unblock", cs%"https://raw.githubusercontent.com/brave/adblock-lists/master/brave-unbreak.txt"),
    (cs%"NoCoin Filter List", cs%"https://raw.githubusercontent.com/brave/adblock-lists/master/coin-miners.txt") ]

/-- the languages there are regional lists for, each with the titles of the lists -/
def regionalLanguages : List (Chars × List Chars) :=
  [ (cs%"ar", [cs%"ARA: Liste AR"]),
    (cs%"be", [cs%"RUS: RU AdList (Дополнительная региональная подписка)"]),
    (cs%"bg", [cs%"BGR: Bulgarian Adblock list"]),
    (cs%"cs", [cs%"CZE, SVK: EasyList Czech and Slovak"]),
    (cs%"da", [cs%"DNK: Schacks Adblock Plus liste"]),
    (cs%"de", [cs%"DEU: EasyList Germany"]),
    (cs%"el", [cs%"GRC: Greek AdBlock Filter"]),
    (cs%"es", [cs%"SPA: EasyList Spanish", cs%"spa, por: Adguard Spanish/Portuguese"]),
    (cs%"et", [cs%"EST: Eesti saitidele kohandatud filter"]),
    (cs%"fa", [cs%"IRN: AdBlock Iran Filter"]),
    (cs%"fi", [cs%"FIN: Finnish Addition to Easylist"]),
    (cs%"fr", [cs%"FRA: EasyList Liste FR"]),
    (cs%"he", [cs%"ISR: EasyList Hebrew"]),
    (cs%"hi", [cs%"IN: Fanboy's India Filters"]),
    (cs%"hu", [cs%"HUN: hufilter"]),
    (cs%"id", [cs%"IDN: ABPindo"]),
    (cs%"is", [cs%"ISL: Icelandic ABP List"]),
    (cs%"it", [cs%"ITA: EasyList Italy"]),
    (cs%"ja", [cs%"JPN: ABP Japanese filters (日本用フィルタ)"]),
    (cs%"ko", [cs%"KOR: Korean Adblock List", cs%"KOR: YousList"]),
    (cs%"lt", [cs%"LTU: Adblock Plus Lithuania"]),
    (cs%"lv", [cs%"LVA: Latvian List"]),
    (cs%"nl", [cs%"NLD: EasyList Dutch"]),
    (cs%"pl", [cs%"POL: polskie filtry do Adblocka i uBlocka"]),
    (cs%"pt", [cs%"spa, por: Adguard Spanish/Portuguese"]),
    (cs%"ro", [cs%"ROU: Romanian Ad (ROad) Block List Light"]),
    (cs%"ru", [cs%"RUS: RU AdList (Дополнительная региональная подписка)"]),
    (cs%"sl", [cs%"SVN: Slovenian List"]),
    (cs%"sv", [cs%"SWE: Frellwit's Filter List"]),
    (cs%"th", [cs%"THA: EasyList Thailand"]),
    (cs%"tr", [cs%"TUR: Adguard Turkish Filter"]),
    (cs%"uk", [cs%"RUS: RU AdList (Дополнительная региональная подписка)"]),
    (cs%"vi", [cs%"VIE: Fanboy's Vietnamese"]),
    (cs%"zh", [cs%"CHN: EasyList China (中文)"]) ]

/-- `o.langs && o.langs.includes(lang)`: the object is for this language -/
def forLanguage (lang : Chars) (o : JsObject) : Bool :=
  match o.get cs%"langs" with
  | some (.texts ls) => ls.contains lang
  | _ => false

/-- the titles of the lists for a language -/
def titlesFor (lang : Chars) : List Chars :=
  match regionalLanguages.find? (fun p => p.1 == lang) with
  | some p => p.2
  | none => []

/-- the objects of all groups -/
def allObjects : List JsObject := adBlockLists.default ++ adBlockLists.regions ++ adBlockLists.malware

end AdBlock.Spec
