import Verif.SpecNode
import Verif.SpecExact
/-
What the numbers of `getParsingStats` are measured by: the text of the lists loaded.
-/
namespace AdBlock.Spec
open AdBlock

/-- What a line about the contents of pages is for. -/
inductive PageKind where
  | hide
  | unhide
  | html
deriving DecidableEq

def PageKind.mark : PageKind → Bytes
  | .hide => bs%"##"
  | .unhide => bs%"#@"
  | .html => bs%"$$"

/-- The constituents of a line about the contents of pages. -/
structure PageText where
  /-- leading white space -/
  indent : Bytes := []
  /-- possibly none -/
  domains : Bytes
  kind : PageKind
  /-- what to select in the page -/
  selector : Bytes

namespace PageText

def line (l : PageText) : Bytes := l.indent ++ l.domains ++ l.kind.mark ++ l.selector

structure WellFormed (l : PageText) : Prop where
  indent : ∀ c ∈ l.indent, c = 32 ∨ c = 9
  domains : ∀ c ∈ l.domains, c ∉ bs%"|@![/$#"
  first : ∀ c, l.domains.head? = some c → c ∉ bs%" \t\r\n"
  noNul : 0 ∉ l.selector
  short : l.line.length ≤ 2047

end PageText

/-- The lines of a list are those of the rules `rs` and the lines `ps` about the contents of pages, in this order, and any
number of blank lines and comments. -/
inductive Contents : (ls : List Bytes) → (rs : List RuleText) → (ps : List PageText) → Prop
  | nil : Contents [] [] []
  | idle {l ls rs ps} : Idle l → Contents ls rs ps → Contents (l :: ls) rs ps
  | page {ls rs ps} (p : PageText) : p.WellFormed → Contents ls rs ps → Contents (p.line :: ls) rs (p :: ps)
  | rule {ls rs ps} (r : RuleText) : Contents ls rs ps → Contents (r.line :: ls) (r :: rs) ps

/-- A rule (an exception, if `s`) without unsupported options. -/
def Usable (s : Bool) (r : RuleText) : Prop := r.exception = s ∧ ∀ o ∈ r.entries, ¬ RuleText.Unsupported o

/-- … consisting of a host. -/
def HostSort (s : Bool) (r : RuleText) : Prop := Usable s r ∧ r.HostOnly

/-- … not consisting of a host, which can be indexed. -/
def IndexedSort (bad : List Bytes) (s : Bool) (r : RuleText) : Prop := Usable s r ∧ ¬ r.HostOnly ∧ r.Indexable bad

/-- … not consisting of a host, which cannot be indexed, with a list of domains none of which is excluded. -/
def DomainSort (bad : List Bytes) (s : Bool) (r : RuleText) : Prop := Usable s r ∧ ∃ dl, ByDomain bad r dl ∧ negative dl = []

/-- … not consisting of a host, which cannot be indexed, with a list of domains all of which are excluded. -/
def AntiDomainSort (bad : List Bytes) (s : Bool) (r : RuleText) : Prop := Usable s r ∧ ∃ dl, ByDomain bad r dl ∧ positive dl = []

/-- All others. -/
def OtherSort (bad : List Bytes) (s : Bool) (r : RuleText) : Prop :=
  Usable s r ∧ ¬ r.HostOnly ∧ ¬ r.Indexable bad ∧ ∀ dl, r.value bs%"domain=" = some dl → positive dl ≠ [] ∧ negative dl ≠ []

/-- The numbers `old`, and those for a list with the rules `rs` and the lines `ps` about the contents of pages (of which HTML
rules are not counted: see C71). -/
structure AddedTo (bad : List Bytes) (old : ParsingStats) (rs : List RuleText) (ps : List PageText) (new : ParsingStats) : Prop where
  filters : new.numFilters = old.numFilters + howMany (IndexedSort bad false) rs
  cosmetic : new.numCosmeticFilters = old.numCosmeticFilters + howMany (fun p => p.kind ≠ .html) ps
  exceptions : new.numExceptionFilters = old.numExceptionFilters + howMany (IndexedSort bad true) rs
  other : new.numNoFingerprintFilters = old.numNoFingerprintFilters + howMany (OtherSort bad false) rs
  domain : new.numNoFingerprintDomainOnlyFilters = old.numNoFingerprintDomainOnlyFilters + howMany (DomainSort bad false) rs
  antiDomain : new.numNoFingerprintAntiDomainOnlyFilters =
    old.numNoFingerprintAntiDomainOnlyFilters + howMany (AntiDomainSort bad false) rs
  otherException : new.numNoFingerprintExceptionFilters = old.numNoFingerprintExceptionFilters + howMany (OtherSort bad true) rs
  domainException : new.numNoFingerprintDomainOnlyExceptionFilters =
    old.numNoFingerprintDomainOnlyExceptionFilters + howMany (DomainSort bad true) rs
  antiDomainException : new.numNoFingerprintAntiDomainOnlyExceptionFilters =
    old.numNoFingerprintAntiDomainOnlyExceptionFilters + howMany (AntiDomainSort bad true) rs
  host : new.numHostAnchoredFilters = old.numHostAnchoredFilters + howMany (HostSort false) rs
  hostException : new.numHostAnchoredExceptionFilters = old.numHostAnchoredExceptionFilters + howMany (HostSort true) rs

end AdBlock.Spec
