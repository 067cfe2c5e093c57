import Verif.Model.Wrap
import Verif.Model.JsLib
/-
How values of JavaScript reach the library as arguments of the Node methods, and how texts get back.
Models the conversions in ad_block_client_wrap.cc:248-262, 264-324, 381-401, 574-588, and lib/filtering.js on
JavaScript strings.

A string of JavaScript is represented by its characters (Unicode scalar values); strings with lone
surrogates, which have none, are not modelled.
-/
namespace AdBlock

/-- A string of JavaScript. -/
abbrev Chars := List Char

/-- `cs%"abc"` is the list of the characters of `abc`. -/
macro:max "cs%" s:str : term => do
  let elems : Array (Lean.TSyntax `term) ← s.getString.toList.toArray.mapM fun c => do
    let n := Lean.Syntax.mkCharLit c
    `(($n : Char))
  `(([ $elems,* ] : List Char))

/-- `String::Utf8Value`: the UTF-8 form of a string.  (The encoding of a character is the one of the core
library of Lean.) -/
def utf8 (s : Chars) : Bytes := s.flatMap String.utf8EncodeChar

/-- `String::NewFromUtf8`: the string with this UTF-8 form; `none` if there is none, in which case V8 replaces
what it cannot read. -/
def fromUtf8 (b : Bytes) : Option Chars := (ByteArray.utf8Decode? b.toByteArray).map Array.toList

/-- A value given as an argument. -/
inductive JsValue where
  /-- `undefined`, also for an argument which is left out -/
  | undefined
  | string (s : Chars)
  /-- any other value, with the string to which it is converted; `none` if the conversion throws, as for
  symbols -/
  | other (text : Option Chars)

/-- `args[i]->ToString(...)` -/
def JsValue.toText : JsValue → Option Chars
  | .undefined => some cs%"undefined"
  | .string s => some s
  | .other text => text

/-- ad_block_client_wrap.cc:250-257 and the like: the C string at `*str`.  If the value cannot be converted, the
pointer is null; otherwise the string ends at the first NUL. -/
def JsValue.cstring (v : JsValue) : Option Bytes := v.toText.map fun s => (utf8 s).takeWhile (· ≠ 0)

variable {E : Env}

/-- ad_block_client_wrap.cc:248-262 `parse`; the parser reads through the pointer. -/
def Client.jsParse (c : Client E) (list : JsValue) (keep : Bool) : Res (Client E) :=
  match list.cstring with
  | none => .ub .nullDeref
  | some t => c.parse t keep

/-- ad_block_client_wrap.cc:264-282 `matches`; the address goes to `strlen`, the page may be null. -/
def Client.jsMatches (c : Client E) (url : JsValue) (option : Mask) (page : JsValue) : Res (Bool × Client E) :=
  match url.cstring with
  | none => .ub .nullDeref
  | some u => c.matches u option page.cstring

/-- ad_block_client_wrap.cc:284-324 `findMatchingFilters`; for a page which is not null, see `Client.nodeFind`. -/
def Client.jsFind (c : Client E) (url : JsValue) (option : Mask) (page : JsValue) : Res FoundData :=
  match url.cstring with
  | none => .ub .nullDeref
  | some u => do
    let found ← c.findMatchingFilters u option page.cstring
    let (filter, orig) ← foundTexts found.filter
    let (exception, exceptionOrig) ← foundTexts found.exception
    pure { isMatch := found.block, matchingFilter := filter, matchingOrigRule := orig,
           matchingExceptionFilter := exception, matchingExceptionOrigRule := exceptionOrig }

/-- ad_block_client_wrap.cc:381-390 `addTag`; a `std::string` is made from the pointer. -/
def Client.jsAddTag (c : Client E) (tag : JsValue) : Res (Client E) :=
  match tag.cstring with
  | none => .ub .nullDeref
  | some t => pure (c.addTag t)

/-- ad_block_client_wrap.cc:392-401 `removeTag` -/
def Client.jsRemoveTag (c : Client E) (tag : JsValue) : Res (Client E) :=
  match tag.cstring with
  | none => .ub .nullDeref
  | some t => pure (c.removeTag t)

/-- ad_block_client_wrap.cc:574-588 `getFingerprint`: the bytes that are made a string; `none` is `undefined`. -/
def jsGetFingerprint (bad : List Bytes) (text : JsValue) : Res (Option Bytes) :=
  match text.cstring with
  | none => .ub .nullDeref
  | some t => pure (getFingerprintStr bad t)

/-- A call of a method of the client object in JavaScript. -/
inductive JsCall where
  | parse (list : JsValue) (keep : Bool)
  | clear
  | matches (url : JsValue) (option : Mask) (page : JsValue)
  | addTag (tag : JsValue)
  | removeTag (tag : JsValue)

/-- What the call returns (`none` is `undefined`), and the client afterwards. -/
def Client.jsCall (c : Client E) : JsCall → Res (Option Bool × Client E)
  | .parse list keep => do pure (none, ← c.jsParse list keep)
  | .clear => pure (none, c.clear)
  | .matches url option page => do
    let (b, c) ← c.jsMatches url option page
    pure (some b, c)
  | .addTag tag => do pure (none, ← c.jsAddTag tag)
  | .removeTag tag => do pure (none, ← c.jsRemoveTag tag)

/-- Calls in turn, and what they return. -/
def Client.jsCalls (c : Client E) : List JsCall → Res (List (Option Bool) × Client E)
  | [] => pure ([], c)
  | x :: xs => do
    let (a, c) ← c.jsCall x
    let (as, c) ← c.jsCalls xs
    pure (a :: as, c)

/-! ### lib/filtering.js on strings

`Model/JsLib` has the same functions on the UTF-8 forms. -/

/-- `s.split('\n')` -/
def jsSplitText : Chars → List Chars
  | [] => [[]]
  | c :: s =>
    match jsSplitText s with
    | [] => []  -- not reached
    | l :: ls => if c = '\n' then [] :: l :: ls else (c :: l) :: ls

/-- `ls.join('\n')` -/
def jsJoinText : List Chars → Chars
  | [] => []
  | [l] => l
  | l :: ls => l ++ '\n' :: jsJoinText ls

/-- lib/filtering.js:21-29 `mapRule` -/
def mapRuleText (rule : Chars) : Chars :=
  if rule = cs%"||imasdk.googleapis.com^$third-party" then cs%"||imasdk.googleapis.com^$third-party,explicitcancel"
  else if rule = cs%"/ima3.js" then cs%"/ima3.js$explicitcancel"
  else rule

/-- lib/filtering.js:50-53 `extraConcatRules` -/
def extraConcatTexts : List Chars := [cs%"||imasdk.googleapis.com/$third-party", cs%"^ima3.js"]

/-- lib/filtering.js:37-45 `sanitizeABPInput(input, filterPredicate)` -/
def sanitizeABPText (input : Chars) (filterPredicate : Chars → Bool := fun rule => rule ≠ []) : Chars :=
  jsJoinText (((jsSplitText input).filter filterPredicate).map mapRuleText ++ extraConcatTexts)

end AdBlock
