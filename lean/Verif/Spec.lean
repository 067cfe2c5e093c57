import Verif.Model.Base
import Verif.Model.ParseFilter
/-
Declarative specifications used in the statements of the property theorems.  Of the model
of the code they only use its byte notation, its data types, the constants of the public
enums and, in `RuleText.opts`, the parser of option lists (which C41 characterises).
-/
namespace AdBlock.Spec
open AdBlock

/-- The separator characters: `$ / : = ? ^`. -/
def separators : List Byte := bs%"$/:=?^"

def IsSep (c : Byte) : Prop := c ∈ separators

instance (c : Byte) : Decidable (IsSep c) := inferInstanceAs (Decidable (_ ∈ _))

/-- ASCII lower case of a byte -/
def lower (c : Byte) : Byte := if 65 ≤ c ∧ c ≤ 90 then c + 32 else c

/-- URLs of web requests: an optional `blob:`, then http, https, ws or wss (in any case),
then `://`. -/
def WebUrl (url : Bytes) : Prop :=
  ∃ blob scheme rest, url = blob ++ scheme ++ bs%"://" ++ rest ∧
    (blob = [] ∨ blob.map lower = bs%"blob:") ∧
    scheme.map lower ∈ [bs%"http", bs%"https", bs%"ws", bs%"wss"]

/-- `test` is the host `base` itself or a subdomain of it. -/
def SameSite (base test : Bytes) : Prop :=
  test = base ∨ ∃ sub, test = sub ++ ch%'.' :: base

/-- Split at every occurrence of `sep`. -/
def splitOn (sep : Byte) : Bytes → List Bytes
  | [] => [[]]
  | c :: s =>
    if c = sep then [] :: splitOn sep s
    else match splitOn sep s with
      | [] => [[c]]  -- not reached
      | p :: ps => (c :: p) :: ps

/-- The lines of a filter list; CR and LF both end a line. -/
def lines (input : Bytes) : List Bytes := splitOn 10 (input.map fun c => if c = 13 then 10 else c)

/-- The pattern part `part` matches at the beginning of `u`: characters stand for
themselves, `^` for a separator or for the end of the address (as its last character). -/
def PartAt : (part : Bytes) → (u : Bytes) → Prop
  | [], _ => True
  | p :: ps, [] => p = ch%'^' ∧ ps = []
  | p :: ps, c :: u => (p = c ∨ (p = ch%'^' ∧ IsSep c)) ∧ PartAt ps u

/-- The parts occur in `u` in this order, without overlap. -/
def PartsIn : (parts : List Bytes) → (u : Bytes) → Prop
  | [], _ => True
  | p :: ps, u => ∃ k, k ≤ u.length ∧ PartAt p (u.drop k) ∧ PartsIn ps (u.drop (k + p.length))

/-- A pattern with `*` wildcards occurs in the address. -/
def PatternIn (pattern u : Bytes) : Prop := PartsIn (splitOn ch%'*' pattern) u

/-- What the code makes of a list of parts.  It differs from `PartsIn` in that, except for
an empty last part,
* at least one character must be left for a part, even if it is empty,
* a part may not be longer than what is left, even if its last `^` would stand for the end,
* a part consisting only of `^` never matches. -/
def PlacedParts : (parts : List Bytes) → (u : Bytes) → Prop
  | [], _ => True
  | p :: ps, u => (p = [] ∧ ps = []) ∨
      (p ≠ bs%"^" ∧ p.length ≤ u.length ∧
        ∃ k, k < u.length ∧ PartAt p (u.drop k) ∧ PlacedParts ps (u.drop (k + p.length)))

/-- A pattern with `*` wildcards matches an address, according to the code. -/
def Placed (pattern u : Bytes) : Prop := PlacedParts (splitOn ch%'*' pattern) u

/-- No `^` inside `part` can be compared with the end of the address: what precedes it does
not match the last characters of the address. -/
def CaretSafe (part u : Bytes) : Prop :=
  ∀ a b, part = a ++ ch%'^' :: b → a ≠ [] → b ≠ [] → ∀ v, v <:+ u → v.length = a.length → ¬ PartAt a v

/-- `^` occurs only as the first or the last character. -/
def CaretEdge (part : Bytes) : Prop := ∀ a b, part = a ++ ch%'^' :: b → a = [] ∨ b = []

/-- The rule `f` has the text `pat`, NUL terminated in memory (rules in the lists). -/
def HasText (f : Filter) (pat : Bytes) : Prop :=
  0 ∉ pat ∧ (∃ r, f.data = some (pat ++ 0 :: r)) ∧ (f.dataLen = none ∨ f.dataLen = some pat.length)

/-- The rule `f` has the text `pat`, given by its length, with anything or nothing
behind it in memory (entries of the hash sets). -/
def HasBareText (f : Filter) (pat : Bytes) : Prop :=
  0 ∉ pat ∧ (∃ r, f.data = some (pat ++ r)) ∧ f.dataLen = some pat.length

/-- A usable fingerprint: six bytes without syntax characters, containing neither `http`
nor `www`, and not on the list of bad fingerprints (the list entries are compared by their
first six bytes; in the code they have exactly six). -/
def UsableFingerprint (bad : List Bytes) (w : Bytes) : Prop :=
  w.length = 6 ∧ (∀ c ∈ w, c ≠ ch%'|' ∧ c ≠ ch%'*' ∧ c ≠ ch%'^') ∧
  ¬ bs%"http" <:+: w ∧ ¬ bs%"www" <:+: w ∧ ∀ bf ∈ bad, ¬ w <+: bf

/-- `w` is the leftmost usable fingerprint in `s`. -/
def LeftmostFingerprint (bad : List Bytes) (s w : Bytes) : Prop :=
  UsableFingerprint bad w ∧
  ∃ pre post, s = pre ++ w ++ post ∧
    ∀ pre' w' post', s = pre' ++ w' ++ post' → UsableFingerprint bad w' → pre.length ≤ pre'.length

/-! #### the text of network rules -/

inductive Anchor where
  | none | left | host
deriving DecidableEq, Repr

def Anchor.mark : Anchor → Bytes
  | .none => []
  | .left => bs%"|"
  | .host => bs%"||"

def Anchor.mask : Anchor → Mask
  | .none => 0
  | .left => FTLeftAnchored
  | .host => FTHostAnchored

/-- How a rule is written in an unusual way. -/
structure Writing where
  /-- what stands in place of `@@` -/
  lead : Bytes
  /-- what stands behind the anchor and before the options, in place of the text and the `|` behind it -/
  raw : Bytes
deriving DecidableEq

/-- The constituents of a line with a network rule. -/
structure RuleText where
  /-- leading white space -/
  indent : Bytes := []
  /-- `@@` -/
  exception : Bool := false
  /-- nothing, `|` or `||` -/
  anchor : Anchor := .none
  text : Bytes
  /-- a `|` behind the text -/
  rightBar : Bool := false
  /-- what follows a `$` -/
  options : Option Bytes := none
  /-- if the rule is not written in the usual way: how it is written -/
  odd : Option Writing := none

/-- What may stand before the anchor of a rule: blanks, and then any number of pairs of `@`, between which a few other
characters are tolerated and behind which blanks are.  Of all this, `kept` becomes part of the text of the rule. -/
inductive Lead : (before kept : Bytes) → Prop
  | blanks {ws} : (∀ c ∈ ws, c = 32 ∨ c = 9) → Lead ws []
  | ats {a kept mid tail} : Lead a kept → (∀ c ∈ mid, c ∈ bs%"![/ \t") → (∀ c ∈ tail, c = 32 ∨ c = 9) →
      Lead (a ++ ch%'@' :: mid ++ ch%'@' :: tail) (kept ++ mid ++ tail)

/-- `body`, followed by `rest`, has no `$` and no `##` or `#@`, which would end it. -/
def RunsOn (body rest : Bytes) : Prop :=
  ch%'$' ∉ body ∧ ∀ x y, body = x ++ ch%'#' :: y → (y ++ rest).head? ≠ some ch%'#' ∧ (y ++ rest).head? ≠ some ch%'@'

/-- The host at the beginning of `p`, the text behind two bars: it ends before a separator; a bar at its end does not
belong to it. -/
def barHost (p : Bytes) : Bytes :=
  if (p.takeWhile fun c => decide (¬ IsSep c)).getLast? = some ch%'|' then (p.takeWhile fun c => decide (¬ IsSep c)).dropLast
  else p.takeWhile fun c => decide (¬ IsSep c)

namespace RuleText

def marks (r : RuleText) : Bytes :=
  (if r.exception then bs%"@@" else []) ++
  r.anchor.mark

/-- the options with their `$` -/
def optionText : Option Bytes → Bytes
  | none => []
  | some o => ch%'$' :: o

/-- what follows the text -/
def trailer (r : RuleText) : Bytes :=
  (if r.rightBar then bs%"|" else []) ++ optionText r.options

/-- the rule without leading white space -/
def body (r : RuleText) : Bytes :=
  match r.odd with
  | none => r.marks ++ r.text ++ r.trailer
  | some w => w.lead ++ r.anchor.mark ++ w.raw ++ optionText r.options

/-- the line with the rule -/
def line (r : RuleText) : Bytes := r.indent ++ r.body

/-- the host of the text: everything before the first separator -/
def hostPart (r : RuleText) : Bytes :=
  match r.odd with
  | none => r.text.takeWhile fun c => decide (¬ IsSep c)
  | some w => barHost w.raw

/-- the text as it is written -/
def written (r : RuleText) : Bytes :=
  match r.odd with
  | none => r.text
  | some w => w.raw

/-- the rule consists of a host only, possibly followed by `^` -/
def HostOnly (r : RuleText) : Prop :=
  r.anchor = .host ∧ (r.odd = none → r.rightBar = false) ∧
    (r.written = r.hostPart ∨ r.written = r.hostPart ++ bs%"^")

instance (r : RuleText) : Decidable r.HostOnly :=
  inferInstanceAs (Decidable (_ ∧ _ ∧ (_ ∨ _)))

/-- The line is not too long.  The options do not count. -/
def Short (r : RuleText) : Prop := r.line.length ≤ 2047 + (r.options.getD []).length

instance (r : RuleText) : Decidable r.Short := inferInstanceAs (Decidable (_ ≤ _))

/-- Conditions under which the constituents of a rule written in the usual way can be told apart. -/
structure Usual (r : RuleText) : Prop where
  odd : r.odd = none
  indent : ∀ c ∈ r.indent, c = 32 ∨ c = 9
  nonempty : r.text ≠ []
  /-- the text has no syntax characters -/
  plain : ∀ c ∈ r.text, c ≠ 0 ∧ c ≠ 10 ∧ c ≠ 13 ∧ c ≠ ch%'|' ∧ c ≠ ch%'$'
  /-- nor a cosmetic marker -/
  hash : ∀ a d b, r.text = a ++ ch%'#' :: d :: b → d ≠ ch%'#' ∧ d ≠ ch%'@'
  /-- without an anchor, the first character must not be taken for something else -/
  first : r.anchor = .none → ∀ c, r.text.head? = some c →
    c ∉ bs%"@![# " ∧ c ≠ 9 ∧ (c = ch%'/' → r.line.getLast? ≠ some ch%'/')
  /-- options are on one line and not an HTML filter -/
  opts : ∀ o, r.options = some o → (∀ c ∈ o, c ≠ 0 ∧ c ≠ 10 ∧ c ≠ 13) ∧ o.head? ≠ some ch%'$'
  short : r.Short

/-- How a rule written in an unusual way begins: whether that makes it an exception, and what of it is kept as the
beginning of the text. -/
inductive Opening (r : RuleText) (w : Writing) : (exception : Bool) → (kept : Bytes) → Prop
  /-- two bars -/
  | host {kept} : Lead (r.indent ++ w.lead) kept → r.anchor = .host → Opening r w (decide (ch%'@' ∈ w.lead)) kept
  /-- one bar, and something else -/
  | left {kept} : Lead (r.indent ++ w.lead) kept → r.anchor = .left → w.raw ++ optionText r.options ≠ [] →
      w.raw.head? ≠ some ch%'|' → Opening r w (decide (ch%'@' ∈ w.lead)) kept
  /-- something that is not taken for anything else -/
  | plain {kept} : Lead (r.indent ++ w.lead) kept → r.anchor = .none → (w.raw = [] → ch%'@' ∈ w.lead) →
      (∀ c ∈ w.raw.head?, c ∉ bs%"|@![ \t") → (∀ y, w.raw = ch%'#' :: y → y.head? ≠ some 32) →
      (w.raw.head? = some ch%'/' → ¬ (r.line.getLast? = some ch%'/' ∧ 1 < r.line.length)) →
      Opening r w (decide (ch%'@' ∈ w.lead)) kept
  /-- an `@` without a second one, which is dropped -/
  | oneAt {a k mid} : Lead (r.indent ++ a) k → w.lead = a ++ ch%'@' :: mid → (∀ c ∈ mid, c ∈ bs%"![/ \t") →
      r.anchor = .none → (∀ c ∈ w.raw.head?, c ∉ bs%"![/ \t@") → Opening r w (decide (ch%'@' ∈ a)) (k ++ mid)
  /-- a bar and nothing else, which is dropped -/
  | oneBar {a kept} : Lead (r.indent ++ a) kept → w.lead = a ++ bs%"|" → r.anchor = .none → w.raw = [] → r.options = none →
      Opening r w (decide (ch%'@' ∈ a)) kept

/-- What a rule written in an unusual way stands for: all its bars but those before the text are dropped, and make it
end with the address. -/
structure Odd (r : RuleText) (w : Writing) : Prop where
  indent : ∀ c ∈ r.indent, c = 32 ∨ c = 9
  /-- all leading white space is in `indent` -/
  lead : ∀ c ∈ w.lead.head?, c ≠ 32 ∧ c ≠ 9
  opening : ∃ kept, Opening r w r.exception kept ∧ r.text = kept ++ w.raw.filter (· ≠ ch%'|')
  bar : r.rightBar = decide (ch%'|' ∈ w.raw)
  runs : RunsOn w.raw (optionText r.options)
  clean : ∀ c ∈ r.line, c ≠ 0 ∧ c ≠ 10 ∧ c ≠ 13
  opts : ∀ o, r.options = some o → o.head? ≠ some ch%'$'
  short : r.Short
  /-- the text is at least as long as the host (otherwise the parser reads out of bounds) -/
  host : r.anchor = .host → r.hostPart.length ≤ r.text.length

/-- Conditions under which a line stands for the rule. -/
inductive WellFormed (r : RuleText) : Prop
  | usual : r.Usual → r.WellFormed
  | odd {w} : r.odd = some w → r.Odd w → r.WellFormed

/-- the kind of the rule -/
def kind (r : RuleText) : Mask :=
  (if r.exception then FTException else 0) |||
  r.anchor.mask |||
  (if r.rightBar then FTRightAnchored else 0) |||
  (if r.HostOnly then FTHostOnly else 0)

/-- a filter carrying the options of the rule -/
def opts (r : RuleText) : Filter :=
  match r.options with
  | none => {}
  | some o => ({} : Filter).parseOptions o

/-- the rule the line stands for -/
def filter (r : RuleText) (preserve : Bool) : Filter where
  filterType := r.kind
  filterOption := r.opts.filterOption
  antiFilterOption := r.opts.antiFilterOption
  domainList := r.opts.domainList
  tag := r.opts.tag
  data := some (cstr r.text)
  host := if r.anchor = .host then some r.hostPart else none
  ruleDefinition := if preserve then some r.body else none

/-- where a rule with fingerprint `fp` is entered in the second pass (`full`) of a parse -/
def effect (r : RuleText) (full : Bool) (fp : Option Bytes) : Effect :=
  if full = false then .none
  else if r.HostOnly then (if r.exception then .addHostException else .addHost)
  else match fp with
    | none => .none
    | some w => if r.exception then .addExceptionFingerprint w else .addFingerprint w

end RuleText

/-- The host of a `||` rule (the first `|` of the line starts it) has no further `|`,
except possibly as its last character. -/
def HostBarFree (line : Bytes) : Prop :=
  ∀ a p, line = a ++ bs%"||" ++ p → ch%'|' ∉ a → ch%'|' ∉ (p.takeWhile fun c => decide (¬ IsSep c)).dropLast

/-- Every entry of a `domain=` list has at most 1024 bytes. -/
def ShortDomains (line : Bytes) : Prop :=
  ∀ a d b, line = a ++ bs%"domain=" ++ d ++ b → ch%',' ∉ d → (b = [] ∨ b.head? = some ch%',') →
    ∀ s ∈ splitOn ch%'|' d, s.length ≤ 1024

/-- Lines on which the parser is memory safe. -/
structure SafeLine (line : Bytes) : Prop where
  short : line.length ≤ 2047
  host : HostBarFree line
  domains : ShortDomains line

/-- A line that is a comment after white space. -/
def IsComment (line : Bytes) : Prop :=
  ∃ ws rest, (∀ c ∈ ws, c = 32 ∨ c = 9) ∧ ws.length < 2047 ∧
    (line = ws ++ ch%'!' :: rest ∨ line = ws ++ ch%'[' :: rest ∨ line = ws ++ ch%'#' :: 32 :: rest)

/-- a blank line or a comment -/
def Idle (line : Bytes) : Prop :=
  (line.length ≤ 2047 ∧ ∀ c ∈ line, c = 32 ∨ c = 9) ∨ IsComment line

/-- Positive entries of a `domain=` list. -/
def positive (domainList : Bytes) : List Bytes :=
  (splitOn ch%'|' domainList).filter fun s => s.head? ≠ some ch%'~'

/-- Negative entries (without their `~`) of a `domain=` list. -/
def negative (domainList : Bytes) : List Bytes :=
  ((splitOn ch%'|' domainList).filter fun s => s.head? = some ch%'~').map (·.drop 1)

/-- `s` is one of the names by which a `domain=` list can refer to the context domain
`cd`: `cd` itself or what follows one of its dots, containing a dot itself. -/
def Covers (s cd : Bytes) : Prop := SameSite s cd ∧ ch%'.' ∈ s

/-! #### kinds of rules -/

/-- a rule about requests: a blocking rule (`false`) or an exception (`true`) -/
def Kind (exception : Bool) (f : Filter) : Prop :=
  f.filterType &&& FTListTypesMask = if exception then FTException else 0

abbrev Blocking (f : Filter) : Prop := Kind false f
abbrev IsException (f : Filter) : Prop := Kind true f

instance (s : Bool) (f : Filter) : Decidable (Kind s f) := inferInstanceAs (Decidable (_ = _))

/-- Some six bytes of the text of the rule (not a regular expression) are usable as a
fingerprint. -/
def HasFingerprint (bad : List Bytes) (f : Filter) : Prop :=
  has f.filterType FTRegex = false ∧ ∃ pat w, HasText f pat ∧ w <:+: pat ∧ UsableFingerprint bad w

/-- The domain list of the rule has only positive entries. -/
def OnlyPositive (f : Filter) : Prop := ∃ dl, f.domainList = some dl ∧ negative dl = []

/-- The domain list of the rule has only negative entries. -/
def OnlyNegative (f : Filter) : Prop := ∃ dl, f.domainList = some dl ∧ positive dl = []

/-- The resource types of requests. -/
def resourceTypes : List Mask :=
  [FOScript, FOImage, FOStylesheet, FOObject, FOXmlHttpRequest, FOObjectSubrequest,
   FOSubdocument, FODocument, FOOther, FOXBL, FOFont, FOMedia, FOWebRTC, FOWebsocket, FOPing]

/-- The documented option names and their bits. -/
def optionTable : List (Bytes × Mask) :=
  [ (bs%"script", FOScript), (bs%"image", FOImage), (bs%"stylesheet", FOStylesheet),
    (bs%"object", FOObject), (bs%"xmlhttprequest", FOXmlHttpRequest),
    (bs%"object-subrequest", FOObjectSubrequest), (bs%"subdocument", FOSubdocument),
    (bs%"document", FODocument), (bs%"xbl", FOXBL), (bs%"collapse", FOCollapse),
    (bs%"donottrack", FODoNotTrack), (bs%"other", FOOther), (bs%"elemhide", FOElemHide),
    (bs%"third-party", FOThirdParty), (bs%"first-party", FONotThirdParty),
    (bs%"ping", FOPing), (bs%"popup", FOPopup), (bs%"font", FOFont), (bs%"media", FOMedia),
    (bs%"webrtc", FOWebRTC), (bs%"generichide", FOGenericHide),
    (bs%"genericblock", FOGenericBlock), (bs%"empty", FOEmpty), (bs%"websocket", FOWebsocket),
    (bs%"important", FOImportant), (bs%"explicitcancel", FOExplicitCancel) ]

/-- The option an abbreviation stands for: the first in the table that begins with it. -/
def fullName (o : Bytes) : Option Bytes := (optionTable.find? fun e => o.isPrefixOf e.1).map (·.1)

/-- An option that is not `domain=`, `tag=` (these have no bit). -/
def HasBit (o : Bytes) : Prop := ¬ bs%"domain=" <+: o ∧ ¬ bs%"tag=" <+: o

end AdBlock.Spec
