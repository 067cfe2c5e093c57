import Verif.SpecStats
/-
What `getFilters` should report: the rules as they are written in the lists.
-/
namespace AdBlock.Spec
open AdBlock

/-- The calls `ops` on a new client load lists with the rules `rs` and the lines `ps` about the contents of pages since the last
`clear` (and with blank lines and comments). -/
inductive CallsLoad (bad : List Bytes) : (ops : List NodeOp) → (rs : List RuleText) → (ps : List PageText) → Prop
  | new : CallsLoad bad [] [] []
  | parse {ops rs ps input preserve rs' ps'} : CallsLoad bad ops rs ps → 0 ∉ input → Contents (lines input) rs' ps' → SoundList bad rs' →
      CallsLoad bad (ops ++ [.op (.parse input preserve)]) (rs ++ rs') (ps ++ ps')
  | clear {ops rs ps} : CallsLoad bad ops rs ps → CallsLoad bad (ops ++ [.op .clear]) [] []
  | other {ops rs ps op} : CallsLoad bad ops rs ps → (∀ input preserve, op ≠ .op (.parse input preserve)) → op ≠ .op .clear →
      CallsLoad bad (ops ++ [op]) rs ps

/-- The rules which should be reported under a name. -/
inductive SortedUnder (bad : List Bytes) : (name : Bytes) → (r : RuleText) → Prop
  | filters {r} : IndexedSort bad false r → SortedUnder bad bs%"filters" r
  | exceptionFilters {r} : IndexedSort bad true r → SortedUnder bad bs%"exceptionFilters" r
  | other {r} : OtherSort bad false r → SortedUnder bad bs%"noFingerprintFilters" r
  | otherException {r} : OtherSort bad true r → SortedUnder bad bs%"noFingerprintExceptionFilters" r
  | domainOnly {r} : DomainSort bad false r → SortedUnder bad bs%"noFingerprintDomainOnlyFilters" r
  | antiDomainOnly {r} : AntiDomainSort bad false r → SortedUnder bad bs%"noFingerprintAntiDomainOnlyFilters" r
  | domainOnlyException {r} : DomainSort bad true r → SortedUnder bad bs%"noFingerprintDomainOnlyExceptionFilters" r
  | antiDomainOnlyException {r} : AntiDomainSort bad true r → SortedUnder bad bs%"noFingerprintAntiDomainOnlyExceptionFilters" r

/-- What is reported about a rule.  Texts and hosts that are empty may be left out. -/
structure ReportsRule (r : RuleText) (p : Report) : Prop where
  text : p.data = some r.text ∨ r.text = [] ∧ p.data = none
  host : r.anchor = .host → p.host = some r.hostPart ∨ r.hostPart = [] ∧ p.host = none
  noHost : r.anchor ≠ .host → p.host = none
  domains : ∀ dl, r.value bs%"domain=" = some dl → p.domainList = (positive dl).filter (· ≠ []) ∧ p.antiDomainList = negative dl
  noDomains : r.value bs%"domain=" = none → p.domainList = [] ∧ p.antiDomainList = []
  domainOnly : p.isDomainOnlyFilter = true ↔ r.exception = false ∧ ∃ dl, r.value bs%"domain=" = some dl ∧ negative dl = []
  antiDomainOnly : p.isAntiDomainOnlyFilter = true ↔ r.exception = false ∧ ∃ dl, r.value bs%"domain=" = some dl ∧ positive dl = []
  domainOnlyException :
    p.isDomainOnlyExceptionFilter = true ↔ r.exception = true ∧ ∃ dl, r.value bs%"domain=" = some dl ∧ negative dl = []
  antiDomainOnlyException :
    p.isAntiDomainOnlyExceptionFilter = true ↔ r.exception = true ∧ ∃ dl, r.value bs%"domain=" = some dl ∧ positive dl = []
  tag : p.tag = (r.value bs%"tag=").getD []

/-- The domains a line about the contents of pages is for: separated by commas. -/
def PageText.listed (l : PageText) : List Bytes := (splitOn ch%',' l.domains).filter fun d => d ≠ [] ∧ d.head? ≠ some ch%'~'

/-- The domains it excludes: those with a `~`. -/
def PageText.excluded (l : PageText) : List Bytes :=
  ((splitOn ch%',' l.domains).filter fun d => d.head? = some ch%'~').map (·.drop 1)

/-- What should be selected in the page: exceptions are written `#@#`. -/
def PageText.meant (l : PageText) : Bytes :=
  if l.kind = .unhide ∧ l.selector.head? = some ch%'#' then l.selector.drop 1 else l.selector

/-- What is reported about a line about the contents of pages.  A selector that is empty may be left out. -/
structure ReportsPage (l : PageText) (p : Report) : Prop where
  text : p.data = some l.meant ∨ l.meant = [] ∧ p.data = none
  host : p.host = none
  listed : p.domainList = l.listed
  excluded : p.antiDomainList = l.excluded
  domainOnly : p.isDomainOnlyFilter = true ↔ l.domains ≠ [] ∧ l.excluded = []
  antiDomainOnly : p.isAntiDomainOnlyFilter = true ↔ l.domains ≠ [] ∧ l.listed = []
  exceptions : p.isDomainOnlyExceptionFilter = false ∧ p.isAntiDomainOnlyExceptionFilter = false
  tag : p.tag = []

/-- What is really reported: the selector as it stands behind the two characters of the mark, and the domains as a single one. -/
structure ReportsPageExactly (l : PageText) (p : Report) : Prop where
  text : p.data = some l.selector ∨ l.selector = [] ∧ p.data = none
  host : p.host = none
  listed : p.domainList = if l.domains = [] ∨ l.domains.head? = some ch%'~' then [] else [l.domains]
  excluded : p.antiDomainList = if l.domains.head? = some ch%'~' then [l.domains.drop 1] else []
  domainOnly : p.isDomainOnlyFilter = true ↔ l.domains ≠ [] ∧ l.domains.head? ≠ some ch%'~'
  antiDomainOnly : p.isAntiDomainOnlyFilter = true ↔ l.domains.head? = some ch%'~'
  exceptions : p.isDomainOnlyExceptionFilter = false ∧ p.isAntiDomainOnlyExceptionFilter = false
  tag : p.tag = []

/-- A rule whose `domain=` list survives being saved: it is not empty, and does not start with `~#` in a rule without tag. -/
def RuleText.SavableDomains (r : RuleText) : Prop := ∀ dl, r.value bs%"domain=" = some dl →
  dl ≠ [] ∧ ((r.value bs%"tag=").getD [] = [] → ¬ bs%"~#" <+: dl)

end AdBlock.Spec
