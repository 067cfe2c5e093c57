import Verif.Spec
import Verif.Model.Client
/-
Declarative specifications about clients: histories of operations, the rules they have
loaded, and which of the rules act on a request.
-/
namespace AdBlock.Spec
open AdBlock

/-- The rules read from the lines of a list, in order. -/
inductive Reads (bad : List Bytes) (preserve : Bool) : List Bytes → List Filter → Prop
  | nil : Reads bad preserve [] []
  | cons {l ls f fs e} : parseFilter bad l 0 preserve true = .ok (f, e) → Reads bad preserve ls fs →
      Reads bad preserve (l :: ls) (f :: fs)

/-- The client has been reached by some history of operations on a new client, or on one that has been
cleared (whatever was done with it before), and `fs` are the rules read since then. -/
inductive History (E : Env) : Client E → List Filter → Prop
  | new : History E (Client.fresh E) []
  | parse {c c' fs gs input preserve} : History E c fs → 0 ∉ input → c.parse input preserve = .ok c' →
      Reads E.bad preserve (lines input) gs → History E c' (fs ++ gs)
  | clear (c : Client E) : History E c.clear []
  | query {c c' fs url ctx dom b} : History E c fs → c.matches url ctx dom = .ok (b, c') → History E c' fs
  | addTag {c fs} (t : Bytes) : History E c fs → History E (c.addTag t) fs
  | removeTag {c fs} (t : Bytes) : History E c fs → History E (c.removeTag t) fs
  | enableBadFingerprintDetection {c fs} : History E c fs → History E c.enableBadFingerprintDetection fs

/-- The rule matches the request, and its tag (if any) is enabled. -/
def Acts (tags : List Bytes) (url : Bytes) (ctx : Mask) (dom : Option Bytes) (f : Filter) : Prop :=
  f.matches url ctx dom none = .ok true ∧ (f.tag = [] ∨ f.tag ∈ tags)

/-- `f` is the rule `g`, or the copy of it held in a hash set: these copies store the text
with its length instead of a terminator. -/
def CopyOf (f g : Filter) : Prop :=
  f = g ∨ ∃ pat, g.data = some (cstr pat) ∧ f = { g with data := some pat, dataLen := some pat.length }

/-- A rule that consists of a host name (and options). -/
def HostRule (s : Bool) (f : Filter) : Prop :=
  Kind s f ∧ has f.filterType FTHostOnly = true ∧ f.data ≠ none

instance (s : Bool) (f : Filter) : Decidable (HostRule s f) := inferInstanceAs (Decidable (_ ∧ _))

/-- The rule is the first host rule for its host. -/
def FirstForHost (s : Bool) (fs : List Filter) (f : Filter) : Prop :=
  fs.find? (fun g => decide (HostRule s g ∧ g.host = f.host)) = some f

/-- A rule that is neither a host rule nor has a fingerprint. -/
def Unindexed (bad : List Bytes) (s : Bool) (f : Filter) : Prop :=
  Kind s f ∧ has f.filterType FTHostOnly = false ∧ ¬ HasFingerprint bad f

/-- One of the names under which a host is looked up: the host itself or a parent domain
containing a dot. -/
def NameOf (host name : Bytes) : Prop := SameSite name host ∧ (name = host ∨ ch%'.' ∈ name)

/-- Which rules the code takes into account for a request.  In a world without defects, this
would be no condition. -/
structure Considered (bad : List Bytes) (s : Bool) (fs : List Filter) (url : Bytes) (dom : Option Bytes)
    (f : Filter) : Prop where
  /-- of the host rules for a host only the first one counts, and a top level domain is
  not looked up -/
  host : HostRule s f → FirstForHost s fs f ∧ NameOf (getUrlHost url) (f.host.getD [])
  /-- rules without fingerprint for given domains need a context domain -/
  positive : Unindexed bad s f → OnlyPositive f → dom ≠ none
  /-- rules without fingerprint excluding domains only count if no such rule excludes the
  context domain -/
  negative : Unindexed bad s f → OnlyNegative f → ∀ d, dom = some d → ∀ g ∈ fs, g.hasUnsupportedOptions = false →
    Unindexed bad s g → OnlyNegative g → ∀ dl, g.domainList = some dl → ∀ x ∈ negative dl, ¬ NameOf d x

/-- No rule without fingerprint excludes the empty domain (as `domain=~` would). -/
def NoEmptyExclusion (bad : List Bytes) (s : Bool) (fs : List Filter) : Prop :=
  ∀ g ∈ fs, Unindexed bad s g → OnlyNegative g → ∀ dl, g.domainList = some dl → [] ∉ negative dl

/-- Some rule of kind `s` that the code considers acts on the request. -/
def SomeActs (bad : List Bytes) (tags : List Bytes) (s : Bool) (fs : List Filter) (url : Bytes) (ctx : Mask)
    (dom : Option Bytes) : Prop :=
  ∃ f ∈ fs, Kind s f ∧ Considered bad s fs url dom f ∧ Acts tags url ctx dom f

/-- Which rules `findMatchingFilters` takes into account: all but some host rules. -/
def Listed (s : Bool) (fs : List Filter) (url : Bytes) (f : Filter) : Prop :=
  HostRule s f → FirstForHost s fs f ∧ NameOf (getUrlHost url) (f.host.getD [])

/-- Some rule of kind `s` that `findMatchingFilters` takes into account acts on the request. -/
def SomeListedActs (tags : List Bytes) (s : Bool) (fs : List Filter) (url : Bytes) (ctx : Mask)
    (dom : Option Bytes) : Prop :=
  ∃ f ∈ fs, Kind s f ∧ Listed s fs url f ∧ Acts tags url ctx dom f

/-- Some rule of kind `s` acts on the request: the reference semantics, without conditions. -/
def AnyActs (tags : List Bytes) (s : Bool) (fs : List Filter) (url : Bytes) (ctx : Mask) (dom : Option Bytes) : Prop :=
  ∃ f ∈ fs, Kind s f ∧ Acts tags url ctx dom f

/-- Lists of rules and requests on which the defects of the domain indexes do not show. -/
structure RegularDomains (bad : List Bytes) (fs : List Filter) (dom : Option Bytes) : Prop where
  /-- without context domain, rules for given domains must have a fingerprint -/
  context : dom = none → ∀ s, ∀ f ∈ fs, Unindexed bad s f → ¬ OnlyPositive f
  empty : dom = none → ∀ s, NoEmptyExclusion bad s fs
  /-- if a rule without fingerprint excludes the context domain (or a parent with a dot), then
  all these rules with exclusions do -/
  exclusions : ∀ d, dom = some d → ∀ s, ∀ f ∈ fs, ∀ g ∈ fs, Unindexed bad s f → OnlyNegative f →
    g.hasUnsupportedOptions = false → Unindexed bad s g → OnlyNegative g →
    ∀ dl, g.domainList = some dl → ∀ x ∈ negative dl, NameOf d x →
    ch%'.' ∈ x ∧ ∃ dl', f.domainList = some dl' ∧ x ∈ negative dl'

/-- Lists of rules and requests on which the defects of the indexes do not show. -/
structure Regular (bad : List Bytes) (fs : List Filter) (url : Bytes) (dom : Option Bytes) : Prop
    extends RegularDomains bad fs dom where
  /-- a host has only one host rule of each kind; its host is not a bare top level domain
  (unless this is the host of the request); and it has no further anchors -/
  hosts : ∀ s, ∀ f ∈ fs, HostRule s f → FirstForHost s fs f ∧
    (∃ h, f.host = some h ∧ (h = getUrlHost url ∨ ch%'.' ∈ h)) ∧
    has f.filterType FTLeftAnchored = false ∧ has f.filterType FTRightAnchored = false

/-- Rules for which comparing them with any address is memory safe: `^` occurs only at the
end of the parts between `*`; and if the rule is a host rule, its text is not empty and does
not end with `*` or a right anchor. -/
def SafeRule (f : Filter) : Prop :=
  ∀ pat, HasText f pat → (∀ part ∈ splitOn ch%'*' pat, CaretEdge part) ∧
    (has f.filterType FTHostOnly = true → pat ≠ [] ∧ pat.getLast? ≠ some ch%'*' ∧
      has f.filterType FTRightAnchored = false)

end AdBlock.Spec
