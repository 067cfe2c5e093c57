import Verif.Model.Base
import Verif.Model.Chars
import Verif.Model.Fingerprint
import Verif.Model.Filter
import Verif.Model.ParseFilter
import Verif.Model.Lib
import Verif.Model.Client
import Verif.Spec
import Verif.Lemmas.Basic
import Verif.Lemmas.Protocol
import Verif.Lemmas.Masks
import Verif.Lemmas.Options
import Verif.Lemmas.Pattern
import Verif.Props.Url
import Verif.Props.Options
import Verif.Lemmas.Fingerprint
import Verif.Props.Pattern
import Verif.Props.Fingerprint
import Verif.Lemmas.ParseLoop
import Verif.Lemmas.OddRule
import Verif.Lemmas.ParseStep
import Verif.Lemmas.ParseFacts
import Verif.Props.ParseRule
import Verif.Props.ParseLine
import Verif.Lemmas.Build
import Verif.Lemmas.ParseSafe
import Verif.SpecLoad
import Verif.SpecSilent
import Verif.Lemmas.Loadable
import Verif.Lemmas.HostLine
import Verif.Lemmas.AnyLine
import Verif.Lemmas.EveryLine
import Verif.Props.Parse
import Verif.SpecClient
import Verif.Lemmas.Match
import Verif.Lemmas.Index
import Verif.Lemmas.Query
import Verif.Lemmas.Reference
import Verif.Lemmas.Decide
import Verif.Lemmas.Outcome
import Verif.Lemmas.Load
import Verif.Lemmas.Mapped
import Verif.Lemmas.Subset
import Verif.Model.Toy
import Verif.Props.Verdict
import Verif.Props.Compare
import Verif.SpecOps
import Verif.Props.History
import Verif.Props.HostRule
import Verif.Model.Serialize
import Verif.SpecSerialize
import Verif.Lemmas.Hex
import Verif.Lemmas.Serialize
import Verif.Lemmas.Deserialize
import Verif.Lemmas.SerializeClient
import Verif.Lemmas.SerializeQuery
import Verif.Lemmas.SerializeHistory
import Verif.Lemmas.SerializeSame
import Verif.Props.Serialize
import Verif.Lemmas.Reread
import Verif.Lemmas.Sane
import Verif.Props.Reread
import Verif.Props.Order
import Verif.Model.JsLib
import Verif.Props.JsLib
import Verif.Props.Stats
import Verif.Model.Cosmetic
import Verif.Props.Cosmetic
import Verif.Model.Ownership
import Verif.SpecOwnership
import Verif.Lemmas.Ownership
import Verif.Lemmas.OwnershipClient
import Verif.Props.Ownership
import Verif.Model.Wrap
import Verif.SpecWrap
import Verif.Lemmas.Cached
import Verif.Lemmas.Wrap
import Verif.Props.Wrap
import Verif.Props.HostList
import Verif.SpecRequest
import Verif.Lemmas.Request
import Verif.Lemmas.PageLine
import Verif.SpecReload
import Verif.SpecSession
import Verif.Props.EndToEnd
import Verif.Props.Loadable
import Verif.Props.EveryList
import Verif.Lemmas.Silent
import Verif.Props.Silent
import Verif.Props.Exact
import Verif.Props.TypeOptions
import Verif.Lemmas.Truncated
import Verif.Props.Truncated
import Verif.Lemmas.NodeFind
import Verif.Props.NodeFind
import Verif.Lemmas.Reload
import Verif.Props.Reload
import Verif.Model.Scripts
import Verif.SpecScripts
import Verif.Props.Scripts
import Verif.SpecSaved
import Verif.Lemmas.Size
import Verif.Props.Size
import Verif.Props.Saved
import Verif.Model.ListTables
import Verif.Model.Lists
import Verif.SpecLists
import Verif.Props.Lists
import Verif.Model.NodeApi
import Verif.SpecNode
import Verif.Props.NodeApi
import Verif.Model.Check
import Verif.SpecFind
import Verif.Props.NodeText
import Verif.SpecCheck
import Verif.Props.Check
import Verif.Model.Programs
import Verif.SpecPrograms
import Verif.SpecProgramsExact
import Verif.Props.Programs
import Verif.Props.ProgramsExact
import Verif.Model.NodeArgs
import Verif.SpecText
import Verif.Lemmas.Utf8
import Verif.Props.NodeArgs
import Verif.Model.NodeProgram
import Verif.SpecNodeProgram
import Verif.Props.NodeProgram
import Verif.Props.Identity
import Verif.Props.Catalogue
import Verif.Props.Upload
import Verif.SpecBounds
import Verif.Props.Bounds
import Verif.Model.Refused
import Verif.SpecRefused
import Verif.Props.Refused
import Verif.Props.NodeStats
import Verif.SpecLaws
import Verif.Props.TextLaws
import Verif.SpecRuleLaws
import Verif.SpecStats
import Verif.SpecReports
import Verif.SpecDocumented
import Verif.Lemmas.Stars
import Verif.Props.RuleLaws
import Verif.Props.Locality
import Verif.Props.Covered
import Verif.Props.Case
import Verif.Props.Halves
import Verif.Props.UserName
import Verif.Props.Documented
import Verif.Props.Longer
import Verif.Props.Scheme
import Verif.Props.Pages
import Verif.Props.Together
import Verif.Props.HostForms
import Verif.Props.HostRules
import Verif.Props.Announced
import Verif.Props.Apart
import Verif.Props.FindLaws
import Verif.Props.StatsText
import Verif.Props.ReportsText
import Verif.Props.ReportsSaved
import Verif.Props.SameData
import Verif.SpecSameReports
import Verif.Props.SameReports
import Verif.SpecRedundant
import Verif.Props.Redundant
import Verif.SpecSameTypes
import Verif.SpecKept
import Verif.Props.SameTypes
import Verif.Props.FindRuleLaws
import Verif.Props.FindRequestLaws
import Verif.Props.FindListLaws
import Verif.Props.FindUnknown
import Verif.Props.FindHostForms
import Verif.Props.FindDocumented
import Verif.Props.FindUser
import Verif.Props.FindAside
import Verif.SpecFindExact
import Verif.Props.FindOrder
import Verif.Props.NodeTextExact
import Verif.Props.CheckExact
import Verif.Props.CheckRefused
import Verif.Props.NodeArgsExact
