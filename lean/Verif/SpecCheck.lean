import Verif.Model.Check
import Verif.SpecNode
import Verif.SpecLists
/-
What the tool scripts/check.js is measured by.
-/
namespace AdBlock.Spec
open AdBlock

/-- An option of the command line is given, and not empty. -/
def Given (o : Option Bytes) (s : Bytes) : Prop := o = some s ∧ s ≠ []

def Absent (o : Option Bytes) : Prop := o = none ∨ o = some []

/-- The arguments say what to do: print numbers, or ask about an address or a list of them for a page. -/
def Purposeful (a : CheckArgs) : Prop :=
  a.stats = true ∨ (∃ h, Given a.host h) ∧ ((∃ l, Given a.location l) ∨ ∃ f, Given a.list f)

/-- Where the arguments say the rules are. -/
inductive RuleSource where
  | uuid (u : Bytes)
  | dat (path : Bytes)
  | http (url : Bytes)
  | text (t : Bytes)
  | file (path : Bytes)
  | defaults

/-- If several are given, the first of these counts. -/
inductive Chooses (a : CheckArgs) : RuleSource → Prop
  | uuid {u} : Given a.uuid u → Chooses a (.uuid u)
  | dat {p} : Absent a.uuid → Given a.dat p → Chooses a (.dat p)
  | http {u} : Absent a.uuid → Absent a.dat → Given a.http u → Chooses a (.http u)
  | text {t} : Absent a.uuid → Absent a.dat → Absent a.http → Given a.filter t → Chooses a (.text t)
  | file {p} : Absent a.uuid → Absent a.dat → Absent a.http → Absent a.filter → Given a.filterPath p → Chooses a (.file p)
  | defaults : Absent a.uuid → Absent a.dat → Absent a.http → Absent a.filter → Absent a.filterPath → Chooses a .defaults

/-- The text of the rules there.  (What is downloaded is preprocessed: see C48.) -/
inductive TextAt (w : World) : RuleSource → Bytes → Prop
  | uuid {l body} : l ∈ allLists → w.fetch l.url = some body → TextAt w (.uuid l.uuid) (listURLText none body)
  | http {u body} : w.fetch u = some body → TextAt w (.http u) (listURLText none body)
  | text {t} : TextAt w (.text t) t
  | file {p t} : w.readFile p = some t → TextAt w (.file p) t
  | defaults {bodies} : defaultLists.map (fun l => w.fetch l.url) = bodies.map some → TextAt w .defaults (listURLsText none bodies)

/-- The name given with `-O` says this type of resource; without it the type is not known. -/
def SaysType (o : Option Bytes) (t : Option (Bytes × Mask)) : Prop :=
  match t with
  | none => o = none
  | some t => ∃ key m, o = some key ∧ filterOptionsGet key = some m ∧ JsNameOf key t.1

/-- The arguments ask about one request, without more. -/
structure Asks (a : CheckArgs) (q : Request) : Prop where
  location : a.location = some q.url
  host : ∃ page, q.domain = some page ∧ page ≠ [] ∧ a.host = some page
  type : SaysType a.filterOption q.type
  plain : a.stats = false ∧ a.discover = false

/-- The arguments ask which rule applies to a request. -/
structure AsksWhy (a : CheckArgs) (q : Request) : Prop where
  location : a.location = some q.url
  host : ∃ page, q.domain = some page ∧ page ≠ [] ∧ a.host = some page
  type : SaysType a.filterOption q.type
  discover : a.stats = false ∧ a.discover = true

/-- The arguments ask about the requests in a file, one address per line, without more. -/
structure AsksAll (w : World) (a : CheckArgs) (qs : List Request) : Prop where
  location : Absent a.location
  list : ∃ path text, Given a.list path ∧ w.readFile path = some text ∧ jsSplit text = qs.map Request.url
  host : ∃ page, page ≠ [] ∧ a.host = some page ∧ ∀ q ∈ qs, q.domain = some page
  type : ∀ q ∈ qs, SaysType a.filterOption q.type
  plain : a.stats = false ∧ a.discover = false

/-- A rule applies to the request, and no exception does. -/
def Blocked (rs : List RuleText) (q : Request) : Prop :=
  (∃ r ∈ rs, r.exception = false ∧ r.AppliesTo [] q) ∧ ¬ ∃ r ∈ rs, r.exception = true ∧ r.AppliesTo [] q

end AdBlock.Spec
