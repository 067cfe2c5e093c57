import Verif.SpecReports
/-
Reports of rules which say the same (for C110).
-/
namespace AdBlock.Spec
open AdBlock

/-- Two reports say the same; a text or a host that is empty may be left out. -/
structure LikeReport (p p' : Report) : Prop where
  text : p'.data.getD [] = p.data.getD []
  host : p'.host.getD [] = p.host.getD []
  rest : { p' with data := p.data, host := p.host } = p

end AdBlock.Spec
