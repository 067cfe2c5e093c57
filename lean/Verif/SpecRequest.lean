import Verif.SpecBounds
/-
The meaning of the text of a network rule for a request, from the text alone: nothing here
refers to the model of the code except its byte notation and, in `typeTable`, the constants by
which the API denotes resource types.
-/
namespace AdBlock.Spec
open AdBlock

/-- The resource types, with the constants of the API. -/
def typeTable : List (Bytes × Mask) :=
  [ (bs%"script", FOScript), (bs%"image", FOImage), (bs%"stylesheet", FOStylesheet), (bs%"object", FOObject),
    (bs%"xmlhttprequest", FOXmlHttpRequest), (bs%"object-subrequest", FOObjectSubrequest),
    (bs%"subdocument", FOSubdocument), (bs%"document", FODocument), (bs%"other", FOOther), (bs%"xbl", FOXBL),
    (bs%"font", FOFont), (bs%"media", FOMedia), (bs%"webrtc", FOWebRTC), (bs%"websocket", FOWebsocket),
    (bs%"ping", FOPing) ]

/-- A request for `scheme://host rest`, made by a page of the domain `domain` (if known) for a
resource of the type `type` (if known). -/
structure Request where
  scheme : Bytes := bs%"http"
  host : Bytes
  rest : Bytes := []
  type : Option (Bytes × Mask) := none
  domain : Option Bytes := none

namespace Request

def url (q : Request) : Bytes := q.scheme ++ bs%"://" ++ q.host ++ q.rest

/-- the argument by which the caller tells the type -/
def context (q : Request) : Mask :=
  match q.type with
  | none => 0
  | some t => t.2

/-- A web request. -/
structure Web (q : Request) : Prop where
  scheme : q.scheme.map lower ∈ [bs%"http", bs%"https", bs%"ws", bs%"wss"]
  host : q.host ≠ [] ∧ ∀ c ∈ q.host, ¬ IsSep c
  rest : q.rest = [] ∨ ∃ c r, q.rest = c :: r ∧ IsSep c
  text : 0 ∉ q.host ∧ 0 ∉ q.rest
  type : ∀ t, q.type = some t → t ∈ typeTable

end Request

/-- The `domain=` list `dl` admits pages of the domain `d`: a name of `d` is listed, and no more
specific one is excluded; or none is excluded, and the list consists of exclusions only. -/
def DomainAdmitted (dl d : Bytes) : Prop :=
  (∃ s ∈ positive dl, Covers s d ∧ ∀ s' ∈ negative dl, Covers s' d → s'.length ≤ s.length) ∨
  (positive dl = [] ∧ ∀ s ∈ negative dl, ¬ Covers s d)

/-- All domains of the list are positive, or all negative, and one of them has more than 1024 bytes. -/
def LongDomains (dl : Bytes) : Prop :=
  (negative dl = [] ∧ ∃ d ∈ positive dl, 1024 < d.length) ∨ (positive dl = [] ∧ ∃ d ∈ negative dl, 1024 < d.length)

namespace RuleText

/-- the options of a rule -/
def entries (r : RuleText) : List Bytes :=
  match r.options with
  | none => []
  | some o => splitOn ch%',' o

/-- an option without its `~` -/
def unsigned (o : Bytes) : Bytes := if o.head? = some ch%'~' then o.drop 1 else o

/-- the value of the last option `key...`, where `key` ends with `=` (a `~` before it has no meaning) -/
def value (r : RuleText) (key : Bytes) : Option Bytes :=
  (r.entries.filterMap fun o => if key.isPrefixOf (unsigned o) then some ((unsigned o).drop key.length) else none).getLast?

/-- The option is listed, perhaps abbreviated. -/
def Says (r : RuleText) (name : Bytes) : Prop := ∃ o ∈ r.entries, fullName o = some name

/-- The option is listed with `~`. -/
def Denies (r : RuleText) (name : Bytes) : Prop := ∃ o ∈ r.entries, o.head? = some ch%'~' ∧ fullName (unsigned o) = some name

instance (r : RuleText) (name : Bytes) : Decidable (r.Says name) := inferInstanceAs (Decidable (∃ o ∈ _, _))
instance (r : RuleText) (name : Bytes) : Decidable (r.Denies name) := inferInstanceAs (Decidable (∃ o ∈ _, _))

/-- the types listed, and those listed with `~` -/
def types (r : RuleText) : List (Bytes × Mask) := typeTable.filter fun t => r.Says t.1
def notTypes (r : RuleText) : List (Bytes × Mask) := typeTable.filter fun t => r.Denies t.1

/-- The rule has an option that is taken for a type which no request has: see C53. -/
def TakenForType (r : RuleText) : Prop := r.Says bs%"collapse" ∨ r.Says bs%"donottrack"

/-- Options that are not supported, or not known (not even as an abbreviation of a known one). -/
def Unsupported (o : Bytes) : Prop :=
  (∃ n ∈ [bs%"popup", bs%"elemhide", bs%"generichide", bs%"genericblock", bs%"empty"], fullName o = some n) ∨ bs%"csp=" <+: o ∨
  (o.head? ≠ some ch%'~' ∧ (∀ k ∈ [bs%"domain=", bs%"tag=", bs%"redirect="], ¬ k <+: o) ∧ fullName o = none)

/-- The options of the rule allow the request, as far as its type is concerned.  A request for a
main document needs a rule with this type.  (If neither the type nor the page is known, a rule
that excludes types is not applied; what is taken for a type matters only if one of them is known.) -/
def TypeAllowed (r : RuleText) (q : Request) : Prop :=
  match q.type with
  | some t => (t ∈ r.types ∨ (r.types = [] ∧ ¬ r.TakenForType)) ∧ t ∉ r.notTypes ∧ (t.1 = bs%"document" → t ∈ r.types)
  | none => r.types = [] ∧ (q.domain = none → r.notTypes = []) ∧ (q.domain ≠ none → ¬ r.TakenForType)

/-- As far as the page is concerned: options about the party and the `domain=` list. -/
def PageAllowed (r : RuleText) (q : Request) : Prop :=
  ∀ d, q.domain = some d →
    (r.Says bs%"third-party" → ¬ SameSite d q.host) ∧
    (r.Denies bs%"third-party" → SameSite d q.host) ∧
    ∀ dl, r.value bs%"domain=" = some dl → DomainAdmitted dl d

/-- The tag of the rule, if it has one, is enabled. -/
def TagEnabled (r : RuleText) (tags : List Bytes) : Prop :=
  ∀ t, r.value bs%"tag=" = some t → t = [] ∨ t ∈ tags

/-- The address has the form the text of the rule and its anchors ask for.  (With a right
anchor, `||` has no meaning.) -/
def AddressFits (r : RuleText) (q : Request) : Prop :=
  match r.anchor, r.rightBar with
  | .none, false => Placed r.text q.url
  | .none, true => r.text <:+ q.url
  | .left, false => r.text <+: q.url
  | .left, true => r.text = q.url
  | .host, false => SameSite r.hostPart q.host ∧ Placed r.text q.url
  | .host, true => r.text <:+ q.url

/-- The rule applies to the request.  A rule with an unsupported option applies to none. -/
def AppliesTo (r : RuleText) (tags : List Bytes) (q : Request) : Prop :=
  (∀ o ∈ r.entries, ¬ Unsupported o) ∧ r.TypeAllowed q ∧ r.PageAllowed q ∧ r.TagEnabled tags ∧ r.AddressFits q

/-- Comparing the rule with the request reads memory out of bounds: see C47.  The options are looked at before, but the
tag is not.  The text of a rule that consists of a host has no terminator, which also matters for rules with a bar in
the host. -/
def ReadsPast (r : RuleText) (q : Request) : Prop :=
  (∀ o ∈ r.entries, ¬ Unsupported o) ∧ r.TypeAllowed q ∧ r.PageAllowed q ∧
  (r.anchor ≠ .left ∧ r.rightBar = false ∧ (r.anchor = .host → SameSite r.hostPart q.host) ∧
      PartsGoPast (!decide r.HostOnly) (splitOn ch%'*' r.text) q.url ∨
    r.HostOnly ∧ r.rightBar = true ∧ r.text <:+ q.url)

/-- The rule has six bytes in a row by which it can be indexed. -/
def Indexable (bad : List Bytes) (r : RuleText) : Prop := ∃ w, w <:+: r.text ∧ UsableFingerprint bad w

/-- Loading the rule writes past the end of a buffer: the domains of a rule that is not indexed otherwise are copied,
if all of them are positive or all of them negative. -/
def Overflows (bad : List Bytes) (r : RuleText) : Prop :=
  (∀ o ∈ r.entries, ¬ Unsupported o) ∧ ¬ r.HostOnly ∧ ¬ r.Indexable bad ∧
  ∃ dl, r.value bs%"domain=" = some dl ∧ LongDomains dl

end RuleText

/-- Lists of rules which can be loaded without running into a known defect of the program. -/
structure SoundList (bad : List Bytes) (rs : List RuleText) : Prop where
  /-- the rules have the form described by `RuleText` -/
  wellFormed : ∀ r ∈ rs, r.WellFormed
  /-- and do not overflow the buffer for domains: see C21 -/
  fits : ∀ r ∈ rs, ¬ r.Overflows bad

/-- A request with which the rules `rs` can be compared without undefined behaviour: see C47. -/
structure Comparable (rs : List RuleText) (q : Request) : Prop where
  inBounds : ∀ r ∈ rs, ¬ r.ReadsPast q

/-- A request to which no known defect of the program in dealing with the rules `rs` applies. -/
structure Clear (bad : List Bytes) (rs : List RuleText) (q : Request) : Prop where
  /-- the rules can be compared with the address safely: see C47 -/
  inBounds : ∀ r ∈ rs, ¬ r.ReadsPast q
  /-- the hosts of the host rules for the host of the request have a dot (unless the host itself has none), and no two
  different blocking rules or two different exceptions among them are for the same host -/
  hosts : ∀ r ∈ rs, r.HostOnly → SameSite r.hostPart q.host → r.hostPart = q.host ∨ ch%'.' ∈ r.hostPart
  different : ∀ r ∈ rs, ∀ r' ∈ rs, r.HostOnly → r'.HostOnly → r.exception = r'.exception → r.hostPart = r'.hostPart →
    SameSite r.hostPart q.host → r = r'
  /-- Among the rules with a `domain=` list (other than host rules) which cannot be indexed, none that only excludes
  domains excludes the page (or a top level domain that is the page). -/
  excluded : ∀ d, q.domain = some d → ∀ r ∈ rs, ∀ dl, r.value bs%"domain=" = some dl → ¬ r.HostOnly → ¬ r.Indexable bad →
    positive dl = [] → ∀ s ∈ negative dl, ¬ (SameSite s d ∧ (s = d ∨ ch%'.' ∈ s))
  /-- If the page is not known, they exclude some domain, but not the empty one. -/
  noPage : q.domain = none → ∀ r ∈ rs, ∀ dl, r.value bs%"domain=" = some dl → ¬ r.HostOnly → ¬ r.Indexable bad →
    negative dl ≠ [] ∧ [] ∉ negative dl

/-- A rule about the contents of pages: domains (possibly none), `##`, `#@` or `$$`, and what to
select in the page. -/
def IsPageRule (line : Bytes) : Prop :=
  ∃ domains mark selector, line = domains ++ mark ++ selector ∧ mark ∈ [bs%"##", bs%"#@", bs%"$$"] ∧
    (∀ c ∈ domains, c ∉ bs%"|@![/$#") ∧ line.length ≤ 2047

/-- A regular expression: these are not supported (unless the program is built with `ENABLE_REGEX`). -/
def IsRegexRule (line : Bytes) : Prop :=
  ∃ body, line = ch%'/' :: body ++ bs%"/"

/-- A comment, behind anything that may stand before the anchor of a rule. -/
def Remark (line : Bytes) : Prop :=
  ∃ a kept rest, line = a ++ rest ∧ Lead a kept ∧ a.length < 2047 ∧
    (rest.head? = some ch%'!' ∨ rest.head? = some ch%'[' ∨ bs%"# " <+: rest)

/-- A regular expression, behind anything that may stand before the anchor of a rule. -/
def RegexLine (line : Bytes) : Prop :=
  ∃ a kept rest, line = a ++ ch%'/' :: rest ∧ Lead a kept ∧ a.length < 2047 ∧ line.getLast? = some ch%'/' ∧ 1 < line.length

/-- Options and nothing else. -/
def BareOptions (line : Bytes) : Prop :=
  ∃ ws o, line = ws ++ ch%'$' :: o ∧ (∀ c ∈ ws, c = 32 ∨ c = 9) ∧ ws.length < 2047 ∧ o.head? ≠ some ch%'$'

/-- There is nothing but a host (possibly an empty one) before the options, apart from `^`. -/
def OnlyHost (p : Bytes) : Prop :=
  ∃ r, (p = barHost p ++ r ∨ p = barHost p ++ ch%'^' :: r) ∧ (r = [] ∨ r.head? = some ch%'$')

/-- The line has two bars and a host. -/
def HasHost (line : Bytes) : Prop :=
  ∃ a kept p, line = a ++ bs%"||" ++ p ∧ Lead a kept ∧ (a ++ bs%"||").length ≤ 2047 ∧ (barHost p ≠ [] ∨ OnlyHost p)

/-- The line begins with `before`, which is neither a comment nor a regular expression, and in which no options and no
selector begin. -/
structure Begins (line before rest : Bytes) : Prop where
  parts : line = before ++ rest
  runs : RunsOn before rest
  remark : ¬ Remark line
  regex : ¬ RegexLine line

/-- Lines that stand for no network rule, or for one that never applies. -/
inductive Ruleless (line : Bytes) : Prop
  | remark : Remark line → Ruleless line
  | regex : RegexLine line → Ruleless line
  | options : BareOptions line → Ruleless line
  /-- a rule about the contents of pages: anything, `##`, `#@` or `$$`, and what to select -/
  | page {before mark selector} : Begins line before (mark ++ selector) → mark ∈ [bs%"##", bs%"#@", bs%"$$"] →
      before.length < 2047 → Ruleless line
  /-- more than 2047 bytes without options: the rule gets no text -/
  | long {before rest} : Begins line before rest → before.length = 2047 → rest ≠ [] → ¬ HasHost line → Ruleless line

/-- The lines of a list are those of the rules `rs`, in this order, with blank lines, comments,
rules about the contents of pages, regular expressions and other lines without a rule anywhere in between. -/
inductive ListOf : List Bytes → List RuleText → Prop
  | nil : ListOf [] []
  | idle {l ls rs} : Idle l → ListOf ls rs → ListOf (l :: ls) rs
  | page {l ls rs} : IsPageRule l → ListOf ls rs → ListOf (l :: ls) rs
  | regex {l ls rs} : IsRegexRule l → ListOf ls rs → ListOf (l :: ls) rs
  | other {l ls rs} : (∀ c ∈ l, c ≠ 0 ∧ c ≠ 10 ∧ c ≠ 13) → Ruleless l → ListOf ls rs → ListOf (l :: ls) rs
  | rule {ls rs} (r : RuleText) : ListOf ls rs → ListOf (r.line :: ls) (r :: rs)

end AdBlock.Spec
