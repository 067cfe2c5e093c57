import Verif.Model.Lists
import Verif.SpecSerialize
/-
What finding lists, the run of the script that makes data files, and the manifest files are measured
by.
-/
namespace AdBlock.Spec
open AdBlock

/-- all lists there are -/
def allLists : List FilterList := defaultLists ++ regionLists ++ malwareLists

/-- the names of the files with data, in the order in which they are written -/
def dataFileNames : List Bytes :=
  bs%"ABPFilterParserData.dat" :: bs%"SafeBrowsingData.dat" :: regionLists.map fun l => l.uuid ++ bs%".dat"

/-- All these lists can be downloaded. -/
def Available (fetch : Bytes → Option Bytes) (ls : List FilterList) : Prop := ∀ l ∈ ls, ∃ body, fetch l.url = some body

/-- The file of a region is made of the text at its address and of the rules that unbreak sites. -/
def RegionFile (E : Env) (fetch : Bytes → Option Bytes) (unbreak : Bytes) (sites : List Bytes) (l : FilterList)
    (file : Bytes × DataFile) : Prop :=
  file.1 = l.uuid ++ bs%".dat" ∧ ∃ body, fetch l.url = some body ∧ generateDataFile E (regionTexts none body unbreak) sites = .ok file.2

/-- The lists with the texts at their addresses -/
def Downloaded (fetch : Bytes → Option Bytes) (ls : List FilterList) (bodies : List (Bytes × Bytes)) : Prop :=
  Pointwise (fun l b => b.1 = l.uuid ∧ fetch l.url = some b.2) ls bodies

/-- What is to be in a file with this name. -/
def RightContents (E : Env) (fetch : Bytes → Option Bytes) (unbreak : Bytes) (sites : List Bytes) (file : Bytes × DataFile) : Prop :=
  (file.1 = bs%"ABPFilterParserData.dat" ∧ ∃ bodies, Downloaded fetch defaultLists bodies ∧ generateDataFile E (listTexts bodies) sites = .ok file.2) ∨
  (file.1 = bs%"SafeBrowsingData.dat" ∧ ∃ bodies, Downloaded fetch malwareLists bodies ∧ generateDataFile E (listTexts bodies) sites = .ok file.2) ∨
  ∃ l ∈ regionLists, RegionFile E fetch unbreak sites l file

/-! ### JSON (RFC 8259): objects whose members are strings and natural numbers -/

inductive JsonValue where
  | string (s : Bytes)
  | number (n : Nat)
deriving DecidableEq, Repr

inductive JsonToken where
  | open
  | close
  | colon
  | comma
  | value (v : JsonValue)
deriving DecidableEq, Repr

/-- where in the text a reader is: between two tokens, in a string, behind a backslash in a string, or in
a number -/
inductive JsonState where
  | between
  | string (w : Bytes)
  | escape (w : Bytes)
  | number (n : Nat)
deriving DecidableEq

/-- the escape sequences of RFC 8259, section 7, without `\u` -/
def jsonEscape (c : Byte) : Option Byte :=
  if c = ch%'"' ∨ c = ch%'\\' ∨ c = ch%'/' then some c
  else if c = ch%'b' then some 8 else if c = ch%'f' then some 12 else if c = ch%'n' then some 10
  else if c = ch%'r' then some 13 else if c = ch%'t' then some 9
  else none

def isDigit (c : Byte) : Bool := ch%'0' ≤ c && c ≤ ch%'9'

/-- a token that is a single byte -/
def jsonPunctuation (c : Byte) : Option JsonToken :=
  if c = ch%'{' then some .open else if c = ch%'}' then some .close
  else if c = ch%':' then some .colon else if c = ch%',' then some .comma
  else none

def jsonSpace (c : Byte) : Bool := c = ch%' ' || c = 9 || c = 10 || c = 13

/-- The tokens of a text.  Control bytes are not allowed in strings, nor zeros in front of a number. -/
def jsonTokens : JsonState → Bytes → Option (List JsonToken)
  | .between, [] => some []
  | .number n, [] => some [.value (.number n)]
  | _, [] => none
  | .between, c :: s =>
    if jsonSpace c then jsonTokens .between s
    else if c = ch%'"' then jsonTokens (.string []) s
    else if isDigit c then jsonTokens (.number (c.toNat - 48)) s
    else match jsonPunctuation c with
      | some t => (jsonTokens .between s).map (t :: ·)
      | none => none
  | .string w, c :: s =>
    if c = ch%'"' then (jsonTokens .between s).map (.value (.string w) :: ·)
    else if c = ch%'\\' then jsonTokens (.escape w) s
    else if c < 0x20 then none
    else jsonTokens (.string (w ++ [c])) s
  | .escape w, c :: s =>
    match jsonEscape c with
    | some b => jsonTokens (.string (w ++ [b])) s
    | none => none
  | .number n, c :: s =>
    if isDigit c then (if n = 0 then none else jsonTokens (.number (10 * n + (c.toNat - 48))) s)
    else if jsonSpace c then (jsonTokens .between s).map (.value (.number n) :: ·)
    else match jsonPunctuation c with
      | some t => (jsonTokens .between s).map (.value (.number n) :: t :: ·)
      | none => none

/-- the members of an object behind its opening brace, at least one -/
def jsonMembers : List JsonToken → Option (List (Bytes × JsonValue))
  | .value (.string k) :: .colon :: .value v :: .comma :: rest => (jsonMembers rest).map ((k, v) :: ·)
  | [.value (.string k), .colon, .value v, .close] => some [(k, v)]
  | _ => none

/-- The members of the object which the text describes; `none` if the text is not JSON. -/
def readJson (text : Bytes) : Option (List (Bytes × JsonValue)) :=
  match jsonTokens .between text with
  | some [.open, .close] => some []
  | some (.open :: rest) => jsonMembers rest
  | _ => none

/-- No quote, no backslash, no control byte. -/
def JsonText (w : Bytes) : Prop := ∀ c ∈ w, c ≠ ch%'"' ∧ c ≠ ch%'\\' ∧ ¬ c < 0x20

/-- what a manifest has to say -/
def manifestMembers (title key : Bytes) : List (Bytes × JsonValue) :=
  [(bs%"description", .string bs%"Brave Ad Block Updater extension"),
   (bs%"key", .string key),
   (bs%"manifest_version", .number 2),
   (bs%"name", .string (bs%"Brave Ad Block Updater (" ++ title ++ bs%")")),
   (bs%"version", .string bs%"0.0.0")]

end AdBlock.Spec
