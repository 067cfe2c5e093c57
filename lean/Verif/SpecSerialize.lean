import Verif.SpecClient
import Verif.Model.Serialize
/-
Declarative specifications about serialization: the format, which rules it can represent, and
when two rules or clients are the same to a user.
-/
namespace AdBlock.Spec
open AdBlock

/-- The elements of two lists correspond one to one, in order. -/
inductive Pointwise {A B : Type _} (R : A → B → Prop) : List A → List B → Prop
  | nil : Pointwise R [] []
  | cons {a b l m} : R a b → Pointwise R l m → Pointwise R (a :: l) (b :: m)

/-- Everything of a rule apart from its text agrees; a null host counts as an empty one. -/
structure SameOptions (f g : Filter) : Prop where
  kind : g.filterType = f.filterType
  options : g.filterOption = f.filterOption
  antiOptions : g.antiFilterOption = f.antiFilterOption
  tag : g.tag = f.tag
  domainList : g.domainList = f.domainList
  host : g.host.getD [] = f.host.getD []

/-- Two rules of the arrays which are the same, wherever their text is stored. -/
structure SameRule (f g : Filter) : Prop extends SameOptions f g where
  noText : f.data = none → g.data = none
  text : ∀ pat, HasText f pat → HasText g pat

/-- Two rules of the hash sets which are the same, wherever their text is stored. -/
structure SameEntry (f g : Filter) : Prop extends SameOptions f g where
  text : ∀ pat, HasBareText f pat → HasBareText g pat

/-- Two hash sets with corresponding entries. -/
structure SameSet {T U : Type} (R : T → U → Prop) (s : HSet T) (t : HSet U) : Prop where
  count : t.count = s.count
  bucket : ∀ i, i < s.count → Pointwise R (s.bucket i) (t.bucket i)

/-- Two pointers to corresponding things, or two null pointers. -/
inductive SamePointer {A B : Type _} (R : A → B → Prop) : Option A → Option B → Prop
  | null : SamePointer R none none
  | some {a b} : R a b → SamePointer R (some a) (some b)

/-- The rules which a client should keep: all but the cosmetic or HTML rules, if these are ignored. -/
def kept {E : Env} (ignoreCosmetic ignoreHtml : Bool) (c : Client E) (id : ListId) : List Filter :=
  if ignoreCosmetic = true ∧ id = .cosmetic ∨ ignoreHtml = true ∧ id = .html then [] else c.lists id

/-- Two clients with the same rules and indexes, the second one perhaps without the cosmetic or
HTML rules. -/
structure SameClient {E : Env} (ignoreCosmetic ignoreHtml : Bool) (c d : Client E) : Prop where
  lists : ∀ id, Pointwise SameRule (kept ignoreCosmetic ignoreHtml c id) (d.lists id)
  numHostAnchoredFilters : d.numHostAnchoredFilters = c.numHostAnchoredFilters
  numHostAnchoredExceptionFilters : d.numHostAnchoredExceptionFilters = c.numHostAnchoredExceptionFilters
  bloom : d.bloom = c.bloom
  exceptionBloom : d.exceptionBloom = c.exceptionBloom
  hostSet : SamePointer (SameSet SameEntry) c.hostSet d.hostSet
  hostExceptionSet : SamePointer (SameSet SameEntry) c.hostExceptionSet d.hostExceptionSet
  domSets : ∀ i, SamePointer (SameSet Eq) (c.domSets i) (d.domSets i)

/-- The tag can be told apart from what follows, and so can a list of domains without tag. -/
structure StorableOptions (f : Filter) : Prop where
  tag : 0 ∉ f.tag ∧ ch%',' ∉ f.tag
  domains : ∀ dl, f.domainList = some dl → 0 ∉ dl ∧ dl ≠ [] ∧ (f.tag = [] → ¬ bs%"~#" <+: dl)
  host : ∀ h, f.host = some h → 0 ∉ h

/-- Rules which the format of `serializeFilters` can represent: those without text, and those
with a text which is not empty. -/
structure StorableRule (f : Filter) : Prop extends StorableOptions f where
  text : f.data = none ∨ ∃ pat, HasText f pat ∧ pat ≠ []

/-- Rules which the format of `Filter::Serialize` can represent. -/
structure StorableEntry (f : Filter) : Prop extends StorableOptions f where
  text : ∃ pat, HasBareText f pat ∧ pat.length < 2 ^ 31

/-- A hash set with a sensible number of buckets, all of whose entries satisfy `P`. -/
structure StorableSet {T : Type} (P : T → Prop) (s : HSet T) : Prop where
  count : 0 < s.count ∧ s.count < 2 ^ 32
  entries : ∀ i, i < s.count → ∀ x ∈ s.bucket i, P x

/-- Clients which the format can represent, if cosmetic or HTML rules are ignored. -/
structure StorableClient {E : Env} (ignoreCosmetic ignoreHtml : Bool) (c : Client E) : Prop where
  rules : ∀ id, ∀ f ∈ kept ignoreCosmetic ignoreHtml c id, StorableRule f
  counters : c.numHostAnchoredFilters < 2 ^ 31 ∧ c.numHostAnchoredExceptionFilters < 2 ^ 31
  hostSet : ∀ s, c.hostSet = some s → StorableSet StorableEntry s
  hostExceptionSet : ∀ s, c.hostExceptionSet = some s → StorableSet StorableEntry s
  domSets : ∀ d s, c.domSets d = some s → StorableSet (fun x => x.length < 2 ^ 31) s

/-- What a rule read from a filter list must fulfil to survive a round trip: its text and its
list of domains are not empty and not larger than 2 GB, and a list of domains without tag does
not look like a tag. -/
structure Representable (f : Filter) : Prop where
  text : ∀ pat, HasText f pat → pat ≠ [] ∧ pat.length < 2 ^ 31
  domains : ∀ dl, f.domainList = some dl → dl ≠ [] ∧ dl.length < 2 ^ 31 ∧ (f.tag = [] → ¬ bs%"~#" <+: dl)

/-- Element hiding or HTML rules, if these are ignored; and empty rules, which are never stored. -/
def LeftOut (ignoreCosmetic ignoreHtml : Bool) (f : Filter) : Prop :=
  ignoreCosmetic = true ∧ (f.filterType &&& FTListTypesMask = FTElementHiding ∨
    f.filterType &&& FTListTypesMask = FTElementHidingException) ∨
  ignoreHtml = true ∧ f.filterType &&& FTListTypesMask = FTHTMLFiltering ∨
  f.filterType = FTEmpty

/-- Two reported rules which are the same to the user: two rules of the arrays, or two of the hash sets. -/
def SameReport (f g : Filter) : Prop := SameRule f g ∨ SameEntry f g ∧ ∃ pat, HasBareText f pat

/-- Two answers of `matches` which are the same to the user. -/
structure SameOutcome {E : Env} (o o' : Outcome E) : Prop where
  block : o'.block = o.block
  filter : SamePointer SameReport o.filter o'.filter
  exception : SamePointer SameReport o.exception o'.exception

/-- Two answers of `findMatchingFilters` which are the same to the user. -/
structure SameFound (o o' : Found) : Prop where
  block : o'.block = o.block
  filter : SamePointer SameReport o.filter o'.filter
  exception : SamePointer SameReport o.exception o'.exception

/-- The number at the start of the header of an entry, as `sscanf` with `%x` reads it. -/
def announced (header : Bytes) : Nat := ((scanX header).map fun v => v.1.toNat).getD 0

/-- The list section of a rule: its tag, if any, and its list of domains, if any. -/
def listBytes (f : Filter) : Bytes :=
  (if f.tag = [] then [] else bs%"~#" ++ f.tag ++ bs%",") ++ f.domainList.getD [] ++ [0]

/-- The bytes of a rule of an array, `text` being its text. -/
def ruleBytes (text : Bytes) (f : Filter) : Bytes :=
  fmtXs [f.filterType, f.filterOption, f.antiFilterOption] ++ [0] ++ text ++ [0] ++ listBytes f ++
    f.host.getD [] ++ [0]

/-- The bytes of a rule of a hash set, `text` being its text. -/
def entryBytes (text : Bytes) (f : Filter) : Bytes :=
  fmtXs [BitVec.ofNat 32 text.length, f.filterType, f.filterOption, f.antiFilterOption] ++ [0] ++ text ++
    f.host.getD [] ++ [0] ++ listBytes f

/-- The bytes of a domain of a hash set. -/
def domainBytes (d : Bytes) : Bytes := fmtX (BitVec.ofNat 32 d.length) ++ bs%"x" ++ [0] ++ d ++ [0]

end AdBlock.Spec
