import Verif.Model.Client
/-
lib/filtering.js and lib/util.js: what the JavaScript package does with the text of filter
lists before it is parsed.  Strings are represented by their UTF-8 bytes, which is how they reach
the parser; that this makes no difference is proved in C74_preprocessing.
-/
namespace AdBlock

/-- `s.split('\n')` -/
def jsSplit : Bytes → List Bytes
  | [] => [[]]
  | c :: s =>
    match jsSplit s with
    | [] => []  -- not reached
    | l :: ls => if c = 10 then [] :: l :: ls else (c :: l) :: ls

/-- `ls.join('\n')` -/
def jsJoin : List Bytes → Bytes
  | [] => []
  | [l] => l
  | l :: ls => l ++ 10 :: jsJoin ls

/-- lib/filtering.js:5 `I` as a predicate: a string counts as true unless it is empty. -/
def jsTruthy (rule : Bytes) : Bool := rule ≠ []

/-- lib/filtering.js:21-29 `mapRule` -/
def mapRule (rule : Bytes) : Bytes :=
  if rule = bs%"||imasdk.googleapis.com^$third-party" then bs%"||imasdk.googleapis.com^$third-party,explicitcancel"
  else if rule = bs%"/ima3.js" then bs%"/ima3.js$explicitcancel"
  else rule

/-- lib/filtering.js:50-53 `extraConcatRules` -/
def extraConcatRules : List Bytes := [bs%"||imasdk.googleapis.com/$third-party", bs%"^ima3.js"]

/-- lib/filtering.js:37-45 `sanitizeABPInput(input, filterPredicate)`; the logging of
filtering.js:10-16 is left out. -/
def sanitizeABPInput (input : Bytes) (filterPredicate : Bytes → Bool := jsTruthy) : Bytes :=
  jsJoin (((jsSplit input).filter filterPredicate).map mapRule ++ extraConcatRules)

/-- lib/util.js:118-124 `getListFilterFunction(uuid)` -/
def getListFilterFunction (uuid : Bytes) : Option (Bytes → Bytes) :=
  if uuid = bs%"FBB430E8-3910-4761-9373-840FC3B43FF2" then
    some fun input => jsJoin (((jsSplit input).drop 4).map fun line => bs%"||" ++ line)
  else none

/-- lib/util.js:61-79 `getSingleListDataFromSingleURL`, given the body of a successful response -/
def singleListData (filter : Option (Bytes → Bytes)) (body : Bytes) : Bytes :=
  sanitizeABPInput (match filter with | none => body | some f => f body)

/-- lib/util.js:106-113 `makeAdBlockClientFromListURL` with one URL: the text given to the parser -/
def listURLText (filter : Option (Bytes → Bytes)) (body : Bytes) : Bytes :=
  sanitizeABPInput (singleListData filter body)

/-- lib/util.js:94-105 `makeAdBlockClientFromListURL` with an array of URLs: the text given to the
parser -/
def listURLsText (filter : Option (Bytes → Bytes)) (bodies : List Bytes) : Bytes :=
  sanitizeABPInput (jsJoin (bodies.map (singleListData filter)))

/-- lib/util.js:20-31 `makeAdBlockClientFromString` with an array of strings -/
def makeClientFromStrings (E : Env) (keepRuleText : Bool) : List Bytes → Res (Client E)
  | texts => texts.foldlM (fun c text => c.parse text keepRuleText) (Client.fresh E)

end AdBlock
