import Verif.SpecText
import Verif.SpecFindExact
import Verif.SpecSaved
import Verif.Model.NodeProgram
/-
What the author of a program in JavaScript that uses several clients may expect, in terms of the strings that
the program passes to them.
-/
namespace AdBlock.Spec
open AdBlock

/-- A list that has been loaded: its text, whether the rules were to be kept, and the rules it contains. -/
structure LoadedList where
  text : Chars
  keep : Bool := false
  rules : List TextRule

/-- What is kept in mind about a client: the lists it has loaded, the tags enabled, and whether it has its rules
from data that were saved (by it or by another client). -/
structure ClientBook where
  lists : List LoadedList := []
  tags : List Chars := []
  fromData : Bool := false

/-- The rules of all lists. -/
def ClientBook.rules (c : ClientBook) : List TextRule := c.lists.flatMap LoadedList.rules

/-- For this request `findMatchingFilters` comes upon a rule consisting of a host. -/
def ClientBook.FindsHost (bad : List Bytes) (c : ClientBook) (q : TextRequest) : Prop :=
  Spec.FindsHost bad { rules := c.rules.map TextRule.rule, tags := c.tags.map utf8 } q.request

/-- What is kept in mind about a program: its clients (`none`: cleaned up), and for each buffer the lists that are
saved in it. -/
structure ProgramBook where
  clients : List (Option ClientBook) := []
  saved : List (List LoadedList) := []

/-- A statement. -/
inductive Stmt where
  | new
  | load (i : Nat) (list : LoadedList)
  | clear (i : Nat)
  | addTag (i : Nat) (t : Chars)
  | removeTag (i : Nat) (t : Chars)
  | matches (i : Nat) (q : TextRequest)
  | find (i : Nat) (q : TextRequest)
  | serialize (i : Nat)
  | deserialize (i : Nat) (x : DataArg)
  | enableBadFingerprintDetection (i : Nat)
  | cleanup (i : Nat)

/-- the statement, as the objects get it -/
def Stmt.js : Stmt → NodeStmt
  | .new => .new
  | .load i l => .call i (.parse (.string l.text) l.keep)
  | .clear i => .call i .clear
  | .addTag i t => .call i (.addTag (.string t))
  | .removeTag i t => .call i (.removeTag (.string t))
  | .matches i q => .call i (.matches (.string q.url) q.request.context (.string q.domain))
  | .find i q => .find i (.string q.url) q.request.context (.string q.domain)
  | .serialize i => .serialize i
  | .deserialize i x => .deserialize i x
  | .enableBadFingerprintDetection i => .enableBadFingerprintDetection i
  | .cleanup i => .cleanup i

namespace ProgramBook

/-- The client `i` exists, has not been cleaned up, and has the property. -/
def Has (b : ProgramBook) (i : Nat) (P : ClientBook → Prop) : Prop := ∃ c, b.clients[i]? = some (some c) ∧ P c

/-- the client `i` is changed -/
def change (b : ProgramBook) (i : Nat) (f : ClientBook → ClientBook) : ProgramBook :=
  { b with clients := b.clients.modify i (Option.map f) }

/-- The effect of a statement.  Clients do not affect one another. -/
def after (b : ProgramBook) : Stmt → ProgramBook
  | .new => { b with clients := b.clients ++ [some {}] }
  | .load i l => b.change i fun c => { c with lists := c.lists ++ [l] }
  | .clear i => b.change i fun c => { c with lists := [], fromData := false }
  | .addTag i t => b.change i fun c => { c with tags := t :: c.tags }
  | .removeTag i t => b.change i fun c => { c with tags := c.tags.filter (· ≠ t) }
  | .serialize i => match b.clients[i]? with
    | some (some c) => { b with saved := b.saved ++ [c.lists] }
    | _ => b
  | .deserialize i (.saved k) => match b.saved[k]? with
    | some ls => b.change i fun c => { c with lists := ls, fromData := true }
    | none => b
  | .cleanup i => { b with clients := b.clients.set i none }
  | _ => b

/-- The statements considered: nothing is done with clients after they have been cleaned up (and each is
cleaned up once); no list is loaded into a client that has loaded data, until it is cleared; lists can be loaded, and
those that are saved can be saved and are at most 20 MB in all; requests are web requests that can be compared with
the rules; and `findMatchingFilters` is not asked about requests for which it comes upon a rule consisting of a host. -/
def Allows (E : Env) (b : ProgramBook) : Stmt → Prop
  | .new => True
  | .load i l => b.Has i fun c => c.fromData = false ∧ '\x00' ∉ l.text ∧
      ListOf ((textLines l.text).map utf8) (l.rules.map TextRule.rule) ∧ SoundList E.bad ((c.rules ++ l.rules).map TextRule.rule)
  | .addTag i t => b.Has i fun _ => '\x00' ∉ t
  | .removeTag i t => b.Has i fun _ => '\x00' ∉ t
  | .matches i q => b.Has i fun c => q.request.Web ∧ Comparable (c.rules.map TextRule.rule) q.request ∧
      '\x00' ∉ q.url ∧ '\x00' ∉ q.domain ∧ E.fp.rolls (utf8 q.url)
  | .find i q => b.Has i fun c => q.request.Web ∧ Comparable (c.rules.map TextRule.rule) q.request ∧
      '\x00' ∉ q.url ∧ '\x00' ∉ q.domain ∧ ¬ c.FindsHost E.bad q
  | .serialize i => b.Has i fun c => (∀ l ∈ c.lists, SavableList (utf8 l.text) (l.rules.map TextRule.rule)) ∧
      (c.lists.map fun l => (utf8 l.text).length + 1).sum ≤ 20000000
  | .deserialize i (.saved k) => b.Has i (fun _ => True) ∧ k < b.saved.length
  | .deserialize i _ => b.Has i fun _ => True
  | .clear i => b.Has i fun _ => True
  | .enableBadFingerprintDetection i => b.Has i fun _ => True
  | .cleanup i => b.Has i fun _ => True

end ProgramBook

namespace ClientBook

/-- Some rule (exception, if `s`) that counts applies to the request. -/
def CountedText (bad : List Bytes) (c : ClientBook) (s : Bool) (q : TextRequest) : Prop :=
  ∃ r ∈ c.rules, r.exception = s ∧ Counted bad (c.rules.map TextRule.rule) q.request r.rule ∧ r.AppliesTo c.tags q

/-- The same for `findMatchingFilters`, for which other rules count. -/
def ListedText (c : ClientBook) (s : Bool) (q : TextRequest) : Prop :=
  ∃ r ∈ c.rules, r.exception = s ∧ HostCounted (c.rules.map TextRule.rule) q.request r.rule ∧ r.AppliesTo c.tags q

/-- The strings by which the program is told about a rule that applies: its text; and the rule itself, if it was to be
kept and does not come from data. -/
def Shows (c : ClientBook) (s : Bool) (q : TextRequest) (text orig : Option Bytes) : Prop :=
  ∃ l ∈ c.lists, ∃ r ∈ l.rules, r.exception = s ∧ r.AppliesTo c.tags q ∧ text.bind fromUtf8 = some r.text ∧
    (l.keep = true ∧ c.fromData = false → orig.bind fromUtf8 = some r.line) ∧
    (l.keep = false ∨ c.fromData = true → orig = none)

/-- What `findMatchingFilters` tells about a request; compare `TellsText`. -/
structure TellsAbout (c : ClientBook) (q : TextRequest) (d : FoundData) : Prop where
  isMatch : d.isMatch = true ↔ c.ListedText false q ∧ ¬ c.ListedText true q
  rule : c.ListedText false q → c.Shows false q d.matchingFilter d.matchingOrigRule
  noRule : ¬ c.ListedText false q → d.matchingFilter = none ∧ d.matchingOrigRule = none
  exception : c.ListedText false q → c.ListedText true q →
    c.Shows true q d.matchingExceptionFilter d.matchingExceptionOrigRule
  noException : ¬ (c.ListedText false q ∧ c.ListedText true q) →
    d.matchingExceptionFilter = none ∧ d.matchingExceptionOrigRule = none

end ClientBook

namespace ProgramBook

/-- The value expected. -/
def Expects (bad : List Bytes) (b : ProgramBook) : Stmt → NodeValue → Prop
  | .matches i q, a => b.Has i fun c => ∃ x, a = .bool x ∧ (x = true ↔ c.CountedText bad false q ∧ ¬ c.CountedText bad true q)
  | .find i q, a => b.Has i fun c => ∃ d, a = .found d ∧ c.TellsAbout q d
  | .serialize _, a => ∃ bytes, a = .buffer bytes
  | .deserialize _ (.saved _), a => a = .bool true
  | .deserialize _ .missing, a => a = .threw .typeError
  | .deserialize _ .other, a => a = .threw .error
  | _, a => a = .undefined

def AllowsAll (E : Env) : ProgramBook → List Stmt → Prop
  | _, [] => True
  | b, x :: xs => b.Allows E x ∧ AllowsAll E (b.after x) xs

def ExpectsAll (bad : List Bytes) : ProgramBook → List Stmt → List NodeValue → Prop
  | _, [], as => as = []
  | b, x :: xs, as => ∃ a as', as = a :: as' ∧ b.Expects bad x a ∧ ExpectsAll bad (b.after x) xs as'

end ProgramBook

end AdBlock.Spec
