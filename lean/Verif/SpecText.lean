import Verif.SpecFind
import Verif.Model.NodeArgs
/-
What rules and requests mean as strings of JavaScript: the same definitions as in Spec and SpecRequest, but
character by character.
-/
namespace AdBlock.Spec
open AdBlock

/-- Split at every occurrence of the character. -/
def splitText (sep : Char) : Chars → List Chars
  | [] => [[]]
  | c :: s =>
    if c = sep then [] :: splitText sep s
    else match splitText sep s with
      | [] => [[c]]  -- not reached
      | p :: ps => (c :: p) :: ps

/-- The lines of a filter list. -/
def textLines (input : Chars) : List Chars := splitText '\n' (input.map fun c => if c = '\r' then '\n' else c)

def SepChar (c : Char) : Prop := c ∈ ['$', '/', ':', '=', '?', '^']

instance (c : Char) : Decidable (SepChar c) := inferInstanceAs (Decidable (_ ∈ _))

/-- The part of a pattern matches at the beginning of the address; compare `PartAt`. -/
def TextPartAt : (part : Chars) → (u : Chars) → Prop
  | [], _ => True
  | p :: ps, [] => p = '^' ∧ ps = []
  | p :: ps, c :: u => (p = c ∨ (p = '^' ∧ SepChar c)) ∧ TextPartAt ps u

/-- Compare `PlacedParts`. -/
def TextPlacedParts : (parts : List Chars) → (u : Chars) → Prop
  | [], _ => True
  | p :: ps, u => (p = [] ∧ ps = []) ∨
      (p ≠ ['^'] ∧ p.length ≤ u.length ∧
        ∃ k, k < u.length ∧ TextPartAt p (u.drop k) ∧ TextPlacedParts ps (u.drop (k + p.length)))

/-- A pattern with `*` wildcards matches an address; compare `Placed`. -/
def TextPlaced (pattern u : Chars) : Prop := TextPlacedParts (splitText '*' pattern) u

/-- The host itself or a subdomain of it. -/
def SameSiteText (base test : Chars) : Prop := test = base ∨ '.' :: base <:+ test

/-- A rule, as characters. -/
structure TextRule where
  exception : Bool := false
  anchor : Anchor := .none
  text : Chars
  rightBar : Bool := false
  options : Option Chars := none

namespace TextRule

/-- the rule as it is written -/
def line (r : TextRule) : Chars :=
  (if r.exception then ['@', '@'] else []) ++
  (match r.anchor with | .none => [] | .left => ['|'] | .host => ['|', '|']) ++
  r.text ++ (if r.rightBar then ['|'] else []) ++
  (match r.options with | none => [] | some o => '$' :: o)

/-- the rule in UTF-8 -/
def rule (r : TextRule) : RuleText :=
  { exception := r.exception, anchor := r.anchor, text := utf8 r.text, rightBar := r.rightBar, options := r.options.map utf8 }

/-- the host of the text -/
def hostPart (r : TextRule) : Chars := r.text.takeWhile fun c => decide (¬ SepChar c)

end TextRule

/-- A request, as characters. -/
structure TextRequest where
  scheme : Chars := ['h', 't', 't', 'p']
  host : Chars
  rest : Chars := []
  type : Option (Bytes × Mask) := none
  domain : Chars

namespace TextRequest

def url (q : TextRequest) : Chars := q.scheme ++ [':', '/', '/'] ++ q.host ++ q.rest

/-- the request in UTF-8 -/
def request (q : TextRequest) : Request :=
  { scheme := utf8 q.scheme, host := utf8 q.host, rest := utf8 q.rest, type := q.type, domain := some (utf8 q.domain) }

end TextRequest

/-- The address has the form the rule asks for; compare `RuleText.AddressFits`. -/
def TextRule.AddressFits (r : TextRule) (q : TextRequest) : Prop :=
  match r.anchor, r.rightBar with
  | .none, false => TextPlaced r.text q.url
  | .none, true => r.text <:+ q.url
  | .left, false => r.text <+: q.url
  | .left, true => r.text = q.url
  | .host, false => SameSiteText r.hostPart q.host ∧ TextPlaced r.text q.url
  | .host, true => r.text <:+ q.url

/-- The rule applies to the request; options are read in UTF-8. -/
def TextRule.AppliesTo (r : TextRule) (tags : List Chars) (q : TextRequest) : Prop :=
  (∀ o ∈ r.rule.entries, ¬ RuleText.Unsupported o) ∧ r.rule.TypeAllowed q.request ∧ r.rule.PageAllowed q.request ∧
  r.rule.TagEnabled (tags.map utf8) ∧ r.AddressFits q

/-- Some rule of the list (exception, if `s`) applies to the request. -/
def SomeTextRule (rs : List TextRule) (tags : List Chars) (s : Bool) (q : TextRequest) : Prop :=
  ∃ r ∈ rs, r.exception = s ∧ r.AppliesTo tags q

/-- The strings by which JavaScript is told about a rule that applies; compare `ShowsRule`. -/
def ShowsText (keep : Bool) (rs : List TextRule) (tags : List Chars) (s : Bool) (q : TextRequest) (text orig : Option Bytes) : Prop :=
  ∃ r ∈ rs, r.exception = s ∧ r.AppliesTo tags q ∧ text.bind fromUtf8 = some r.text ∧
    (keep = true → orig.bind fromUtf8 = some r.line) ∧ (keep = false → orig = none)

/-- What JavaScript is told about a request; compare `Tells`. -/
structure TellsText (keep : Bool) (rs : List TextRule) (tags : List Chars) (q : TextRequest) (d : FoundData) : Prop where
  isMatch : d.isMatch = true ↔ SomeTextRule rs tags false q ∧ ¬ SomeTextRule rs tags true q
  rule : SomeTextRule rs tags false q → ShowsText keep rs tags false q d.matchingFilter d.matchingOrigRule
  noRule : ¬ SomeTextRule rs tags false q → d.matchingFilter = none ∧ d.matchingOrigRule = none
  exception : SomeTextRule rs tags false q → SomeTextRule rs tags true q →
    ShowsText keep rs tags true q d.matchingExceptionFilter d.matchingExceptionOrigRule
  noException : ¬ (SomeTextRule rs tags false q ∧ SomeTextRule rs tags true q) →
    d.matchingExceptionFilter = none ∧ d.matchingExceptionOrigRule = none

/-- What the author of a program in JavaScript keeps in mind about a client; compare `Book`. -/
structure TextBook where
  rules : List TextRule := []
  tags : List Chars := []

/-- A call in a program in JavaScript.  `rules` are the rules in the list that is loaded. -/
inductive TextCall where
  | load (list : Chars) (keep : Bool) (rules : List TextRule)
  | clear
  | addTag (t : Chars)
  | removeTag (t : Chars)
  | matches (q : TextRequest)

/-- the call as the client gets it -/
def TextCall.js : TextCall → JsCall
  | .load list keep _ => .parse (.string list) keep
  | .clear => .clear
  | .addTag t => .addTag (.string t)
  | .removeTag t => .removeTag (.string t)
  | .matches q => .matches (.string q.url) q.request.context (.string q.domain)

namespace TextBook

/-- The effect of a call. -/
def after (b : TextBook) : TextCall → TextBook
  | .load _ _ rules => { b with rules := b.rules ++ rules }
  | .clear => { b with rules := [] }
  | .addTag t => { b with tags := t :: b.tags }
  | .removeTag t => { b with tags := b.tags.filter (· ≠ t) }
  | .matches _ => b

/-- The calls considered; compare `Book.Allows`. -/
def Allows (E : Env) (b : TextBook) : TextCall → Prop
  | .load list _ rules => '\x00' ∉ list ∧ ListOf ((textLines list).map utf8) (rules.map TextRule.rule) ∧
      SoundList E.bad ((b.rules ++ rules).map TextRule.rule)
  | .clear => True
  | .addTag t => '\x00' ∉ t
  | .removeTag t => '\x00' ∉ t
  | .matches q => q.request.Web ∧ Clear E.bad (b.rules.map TextRule.rule) q.request ∧ '\x00' ∉ q.url ∧ '\x00' ∉ q.domain ∧ E.fp.rolls (utf8 q.url)

/-- The answer expected. -/
def Expects (b : TextBook) : TextCall → Option Bool → Prop
  | .matches q, a => ∃ x, a = some x ∧ (x = true ↔ SomeTextRule b.rules b.tags false q ∧ ¬ SomeTextRule b.rules b.tags true q)
  | _, a => a = none

/-- All calls are among those considered. -/
def AllowsAll (E : Env) : TextBook → List TextCall → Prop
  | _, [] => True
  | b, c :: cs => b.Allows E c ∧ AllowsAll E (b.after c) cs

/-- All answers are as expected. -/
def ExpectsAll : TextBook → List TextCall → List (Option Bool) → Prop
  | _, [], as => as = []
  | b, c :: cs, as => ∃ a as', as = a :: as' ∧ b.Expects c a ∧ ExpectsAll (b.after c) cs as'

end TextBook

/-- A text without any character that has a meaning in rules (and not too long). -/
structure PlainText (p : Chars) : Prop where
  nonempty : p ≠ []
  plain : ∀ c ∈ p, c ∉ ['\x00', '\n', '\r', '|', '$', '*', '^', '#']
  first : ∀ c, p.head? = some c → c ∉ ['@', '!', '[', ' ', '\t'] ∧ (c = '/' → p.getLast? ≠ some '/')
  short : (utf8 p).length ≤ 1024

end AdBlock.Spec
