import Verif.Py
import Verif.Codec
import Verif.Host
import Verif.Record
import Verif.Parser
import Verif.Url
import Verif.Validator
import Verif.Spec.Ascii
import Verif.Spec.Text
import Verif.Lemmas.Ascii
import Verif.Lemmas.Utf
import Verif.Lemmas.Str
import Verif.Lemmas.Percent
import Verif.Props.Codec
import Verif.Spec.Host
import Verif.Lemmas.Num
import Verif.Lemmas.IPv4
import Verif.Lemmas.IPv4b
import Verif.Spec.Example
import Verif.Props.IPv4
import Verif.Lemmas.IPv6
import Verif.Lemmas.IPv6b
import Verif.Lemmas.IPv6c
import Verif.Lemmas.IPv6d
import Verif.Props.IPv6
import Verif.Spec.Idna
import Verif.Lemmas.Host
import Verif.Props.Host
import Verif.Lemmas.Suffix
import Verif.Lemmas.SuffixEq
import Verif.Lemmas.SuffixEq2
import Verif.Lemmas.Eval
import Verif.Props.Termination
import Verif.Lemmas.WF
import Verif.Lemmas.WFStep
import Verif.Lemmas.HostErr
import Verif.Lemmas.Inv
import Verif.Lemmas.InvStep
import Verif.Lemmas.InvEval
import Verif.Spec.Url
import Verif.Lemmas.Parsed
import Verif.Lemmas.RoundTrip
import Verif.Lemmas.RoundTrip2
import Verif.Lemmas.LongPort
import Verif.Props.Parsed
import Verif.Props.RoundTrip
import Verif.Spec.Reference
import Verif.Lemmas.Prepare
import Verif.Lemmas.Slashes
import Verif.Lemmas.SchemeStart
import Verif.Lemmas.Reference
import Verif.Lemmas.Encoding
import Verif.Props.Input
import Verif.Props.Reference
import Verif.Heap
import Verif.Lemmas.Heap
import Verif.Props.Heap
import Verif.Lemmas.Setter
import Verif.Spec.Setter
import Verif.Lemmas.SetterFrame
import Verif.Props.Setter
import Verif.Spec.History
import Verif.Lemmas.History
import Verif.Props.History
import Verif.Spec.Params
import Verif.Lemmas.Params
import Verif.Props.Params
import Verif.Spec.Origin
import Verif.Lemmas.Origin
import Verif.Props.Origin
import Verif.Lemmas.Log
import Verif.Lemmas.Recording
import Verif.Spec.Validity
import Verif.Lemmas.Validity
import Verif.Lemmas.ValidHost
import Verif.Props.Validity
import Verif.Spec.ValidityAny
import Verif.Lemmas.ValidityAny
import Verif.Props.ValidityAny
import Verif.Lemmas.OwnValue
import Verif.Props.OwnValue
import Verif.Lemmas.Surrogate
import Verif.Lemmas.Surrogate2
import Verif.Lemmas.Surrogate3
import Verif.Props.Surrogate
import Verif.Spec.Machine
import Verif.Lemmas.Machine1
import Verif.Lemmas.Machine2
import Verif.Lemmas.Machine3
import Verif.Lemmas.Machine4
import Verif.Lemmas.Machine5
import Verif.Props.Machine
import Verif.Lemmas.PyNumeral
import Verif.Spec.HostParser
import Verif.Lemmas.HostParser
import Verif.Props.HostParser
import Verif.Spec.Api
import Verif.Lemmas.QueryList
import Verif.Lemmas.Api
import Verif.Lemmas.ApiHost
import Verif.Props.Api
import Verif.Spec.ApiExact
import Verif.Lemmas.AsciiCount
import Verif.Lemmas.ApiExact
import Verif.Spec.Reports
import Verif.Lemmas.Reports1
import Verif.Lemmas.Reports2
import Verif.Lemmas.Reports3
import Verif.Lemmas.Reports4
import Verif.Spec.HostReports
import Verif.Lemmas.HostReports
import Verif.Props.Reports
import Verif.Spec.Serialize
import Verif.Lemmas.Serialize
import Verif.Props.Getter
import Verif.Store
import Verif.Spec.Store
import Verif.Lemmas.Store
import Verif.Props.Store
import Verif.Collection
import Verif.Spec.Collection
import Verif.Lemmas.Collection
import Verif.Props.Collection
import Verif.Spec.Domain
import Verif.Lemmas.Domain
import Verif.Props.Domain
import Verif.Spec.Writing
import Verif.Lemmas.Writing1
import Verif.Lemmas.Writing2
import Verif.Lemmas.Writing3
import Verif.Lemmas.Writing4
import Verif.Props.Writing
import Verif.Lemmas.Injective
import Verif.Lemmas.BareFile
import Verif.Lemmas.OpaqueText
import Verif.Props.Opaque
import Verif.Lemmas.Again
import Verif.Lemmas.Again2
import Verif.Props.Again
import Verif.Spec.HostText
import Verif.Lemmas.HostText
import Verif.Props.HostPort
import Verif.Lemmas.AnyBase
import Verif.Props.AnyBase
import Verif.Spec.Rfc3986
import Verif.Lemmas.Rfc3986
import Verif.Props.Rfc3986
import Verif.Iter
import Verif.Spec.Iter
import Verif.Lemmas.Iter
import Verif.Props.Iter
import Verif.Spec.Commute
import Verif.Lemmas.Commute
import Verif.Props.Commute
import Verif.Props.Stable
import Verif.Spec.Anatomy
import Verif.Lemmas.Anatomy
import Verif.Lemmas.Anatomy2
import Verif.Props.Anatomy
import Verif.Props.Anatomy2
import Verif.Spec.Denote
import Verif.Lemmas.Denote
import Verif.Props.Denote
import Verif.Notes
import Verif.Spec.Notes
import Verif.Lemmas.Notes
import Verif.Lemmas.Notes2
import Verif.Props.Notes
import Verif.Spec.Generic
import Verif.Lemmas.Generic
import Verif.Props.Generic
import Verif.Repr
import Verif.Spec.Literal
import Verif.Lemmas.Repr
import Verif.Lemmas.ReprBig
import Verif.Props.Repr
import Verif.Spec.Size
import Verif.Lemmas.Size
import Verif.Lemmas.Size2
import Verif.Lemmas.Size3
import Verif.Lemmas.Size4
import Verif.Props.Size
import Verif.Spec.PyInt
import Verif.Lemmas.PyInt
import Verif.Lemmas.PyInt2
import Verif.Props.Numeral
import Verif.Spec.Deviant
import Verif.Spec.Depend
import Verif.Spec.Assign
import Verif.Spec.Tabs
import Verif.Lemmas.Deviant
import Verif.Lemmas.Deviant2
import Verif.Lemmas.Depend
import Verif.Lemmas.Assign
import Verif.Lemmas.Tabs
import Verif.Props.Deviant
import Verif.Props.Depend
import Verif.Props.Assign
import Verif.Props.Tabs
import Verif.Props.Exact
import Verif.Lemmas.SurrogateExact
import Verif.Props.SurrogateExact
import Verif.Spec.Settings
import Verif.Lemmas.Settings
import Verif.Lemmas.Settings2
import Verif.Props.Settings
import Verif.Props.Exact2
import Verif.Spec.Refuse
import Verif.Lemmas.Refuse
import Verif.Props.Refuse
import Verif.Spec.LongQuad
import Verif.Spec.Raises
import Verif.Lemmas.IPv6e
import Verif.Props.Raises
import Verif.Spec.IPv6Text
import Verif.Lemmas.IPv6f
import Verif.Props.IPv6Text
import Verif.Spec.HostDenote
import Verif.Props.HostDenote
import Verif.Props.ApiExact
import Verif.Lemmas.MachineHalts
import Verif.Lemmas.OriginExact
import Verif.Props.OriginExact
import Verif.Spec.DomainExact
import Verif.Props.DomainExact
import Verif.Spec.ErrorFree
import Verif.Lemmas.ErrorFree1
import Verif.Lemmas.ErrorFree2
import Verif.Lemmas.ErrorFree3
import Verif.Lemmas.ErrorFree4
import Verif.Lemmas.SchemeKept
import Verif.Props.ErrorFree
import Verif.Spec.SilentHost
import Verif.Lemmas.SilentHost
import Verif.Props.SilentHost
import Verif.Spec.CleanUrl
import Verif.Lemmas.CleanUrl1
import Verif.Lemmas.CleanUrl2
import Verif.Lemmas.CleanUrl3
import Verif.Props.CleanUrl
import Verif.Spec.OddText
import Verif.Lemmas.OddText
import Verif.Props.OddText
import Verif.Spec.Place
import Verif.Lemmas.Place
import Verif.Lemmas.Place2
import Verif.Lemmas.Place3
import Verif.Lemmas.Place4
import Verif.Props.Place
import Verif.Lemmas.Own
import Verif.Props.Own
import Verif.Lemmas.OriginText
import Verif.Props.OriginText
import Verif.Lemmas.Copy
import Verif.Props.Copy
import Verif.Props.SearchOps
import Verif.Lemmas.Compose
import Verif.Props.Compose
import Verif.Props.SchemeVerdict
import Verif.Props.Up
import Verif.Props.Settled
import Verif.Props.Interchange
import Verif.Props.Lockstep
import Verif.Props.Reload
import Verif.Props.Image
import Verif.Props.Attributes
