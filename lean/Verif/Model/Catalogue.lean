import Verif.Model.Lists
import Verif.Model.NodeArgs
/-
The tables of lists as the package exports them to JavaScript (`adBlockLists`), and finding a list in them by its UUID.
-/
namespace AdBlock

/-- The value of a property: a string, or an array of strings. -/
inductive JsField where
  | text (s : Chars)
  | texts (l : List Chars)
deriving DecidableEq

/-- An object: the properties that were set, in this order. -/
abbrev JsObject := List (Chars × JsField)

/-- `o.name`; `none` is `undefined` -/
def JsObject.get (o : JsObject) (name : Chars) : Option JsField := (o.find? fun p => p.1 == name).map (·.2)

/-- `String::NewFromUtf8(isolate, s.c_str(), ...)`: the string up to the first NUL.  What V8 makes of bytes that are not
UTF-8 is not modelled (it replaces them); nothing is left of the string here. -/
def jsFromString (s : Bytes) : Chars := (fromUtf8 (s.takeWhile (· ≠ 0))).getD []

/-- ad_block_client_wrap.cc:50-75 `ToLocalObject` for a list -/
def listObject (l : FilterList) : JsObject :=
  [ (cs%"uuid", .text (jsFromString l.uuid)),
    (cs%"listURL", .text (jsFromString l.url)),
    (cs%"title", .text (jsFromString l.title)),
    (cs%"supportURL", .text (jsFromString l.supportUrl)),
    (cs%"componentID", .text (jsFromString l.componentId)),
    (cs%"base64PublicKey", .text (jsFromString l.base64PublicKey)) ] ++
  if l.langs.length > 0 then [(cs%"langs", .texts (l.langs.map jsFromString))] else []

/-- ad_block_client_wrap.cc:205-212 and 77-86: the groups of `adBlockLists` -/
structure Catalogue where
  default : List JsObject
  malware : List JsObject
  regions : List JsObject

/-- ad_block_client_wrap.cc:205-218 `adBlockLists` -/
def adBlockLists : Catalogue where
  default := defaultLists.map listObject
  malware := malwareLists.map listObject
  regions := regionLists.map listObject

/-- data_file_version.h:9, ad_block_client_wrap.cc:219-220 `adBlockDataFileVersion` -/
def dataFileVersion : Nat := 4

/-- lib/util.js:139-148: the object with this UUID -/
def jsFindList (lists : Catalogue) (uuid : Chars) : Option JsObject :=
  let has (o : JsObject) := o.get cs%"uuid" == some (.text uuid)
  match lists.default.find? has with
  | some o => some o
  | none =>
    match lists.regions.find? has with
    | some o => some o
    | none => lists.malware.find? has

/-- lib/util.js:138-153 `makeAdBlockClientFromListUUID`, on strings.  The address goes to the request library, where it
is a text in UTF-8; an address that is missing cannot be requested. -/
def jsMakeClientFromListUUID (E : Env) (fetch : Bytes → Option Bytes) (keepRuleText : Bool) (uuid : Chars) :
    Option (Res (Client E)) :=
  match jsFindList adBlockLists uuid with
  | none => none
  | some o =>
    match o.get cs%"listURL" with
    | some (.text url) => makeClientFromListURL E fetch (getListFilterFunction (utf8 uuid)) keepRuleText (utf8 url)
    | _ => none

/-- scripts/check.js:71-73: the addresses of the default lists -/
def jsDefaultAddresses : List (Option JsField) := adBlockLists.default.map fun o => o.get cs%"listURL"

end AdBlock
