import Verif.SpecRequest
import Verif.SpecClient
/-
Exactly which lines of a list cannot be loaded without undefined behaviour (C21).
-/
namespace AdBlock.Spec
open AdBlock

/-- The line consists of something that may stand before two bars, the two bars, `body` and `rest`. -/
structure HostLine (line before kept body rest : Bytes) : Prop where
  line : line = before ++ bs%"||" ++ body ++ rest
  lead : Lead before kept
  runs : RunsOn body rest

/-- A line of more than 2047 bytes with two bars, a host and something else: the rule gets no text, but is taken to have
one (null pointer). -/
def NoText (line : Bytes) : Prop :=
  ∃ a kept body rest, HostLine line a kept body rest ∧ rest ≠ [] ∧ (a ++ bs%"||" ++ body).length = 2047 ∧
    barHost (body ++ rest) ≠ [] ∧ ¬ OnlyHost (body ++ rest)

/-- A line with two bars and a host that is longer than the text of the rule, to which the bars in it do not belong: the
text is taken to be as long as the host (read out of bounds). -/
def TextTooShort (line : Bytes) : Prop :=
  ∃ a kept body rest, HostLine line a kept body rest ∧
    (rest = [] ∧ line.length ≤ 2047 ∨ (∃ o, rest = ch%'$' :: o ∧ o.head? ≠ some ch%'$') ∧ (a ++ bs%"||" ++ body).length < 2047) ∧
    (kept ++ body.filter (· ≠ ch%'|')).length < (barHost (body ++ rest)).length

/-- The rule is put into the index of domains, for which its domains are copied, and one of them is too long for the
buffer. -/
def DomainsOverflow (bad : List Bytes) (f : Filter) : Prop :=
  f.hasUnsupportedOptions = false ∧ (∃ s, Unindexed bad s f) ∧ ∃ dl, f.domainList = some dl ∧ LongDomains dl

/-- The rule read from the line has a domain that is too long. -/
def DomainTooLong (bad : List Bytes) (line : Bytes) : Prop :=
  ∃ f e, parseFilter bad line 0 false true = .ok (f, e) ∧ DomainsOverflow bad f

/-- A rule that consists of a host, but whose line is too long, so that it is entered for the host without a text. -/
def Peculiar (line : Bytes) : Prop :=
  ∃ a kept body rest, HostLine line a kept body rest ∧ OnlyHost (body ++ rest) ∧ (a ++ bs%"||" ++ body).length = 2047 ∧ rest ≠ []

/-- The line can be loaded. -/
structure Loadable (bad : List Bytes) (line : Bytes) : Prop where
  text : ¬ NoText line
  host : ¬ TextTooShort line
  domains : ¬ DomainTooLong bad line

end AdBlock.Spec
