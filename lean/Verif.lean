import Verif.Props.TypeList
import Verif.Props.AnySafety
import Verif.Props.AnyOps
import Verif.Props.AnyDefects
import Verif.Props.AnyExact
import Verif.Props.Poly
import Verif.Props.Vtable
import Verif.Props.Call
import Verif.Props.Compare
import Verif.Props.Descriptor
import Verif.Props.VisitInvoke
import Verif.Props.TypeSwitch
import Verif.Props.VisitPoly
import Verif.Props.Visitors
import Verif.Props.Variant
import Verif.Props.Dpv
import Verif.Props.DpvThrow
import Verif.Props.ExactMore
import Verif.Props.DpvEq
import Verif.Props.DpvIter
import Verif.Props.Fields
import Verif.Props.Swarm
import Verif.Props.UniquePtr
import Verif.Props.RefCtor
import Verif.Props.Stability
import Verif.Props.Invoke
import Verif.Props.Macro
import Verif.Props.DpvAlgo
import Verif.Props.Ctor
import Verif.Props.Throws
import Verif.Props.Threads
import Verif.Props.NoAlloc
import Verif.Props.Cost
import Verif.Props.Methods
import Verif.Props.AnyCast
import Verif.Props.DpvAlloc
import Verif.Props.DpvRange
import Verif.Props.DpvRefs
import Verif.Props.VisitCall
import Verif.Props.DpvViews
import Verif.Props.Nested
import Verif.Props.Reentry
import Verif.Props.Atomic
import Verif.Props.SwarmInsert
import Verif.Model.Fine
import Verif.Spec.Fine
import Verif.Lemmas.Fine
import Verif.Lemmas.FineDisc
import Verif.Lemmas.FineLocal
import Verif.Lemmas.FineThreads
import Verif.Spec.FineJoin
import Verif.Lemmas.FineJoin
import Verif.Props.Fine
import Verif.Props.FineJoin
import Verif.Spec.Sync
import Verif.Lemmas.Sync
import Verif.Lemmas.SyncInv
import Verif.Props.Sync
import Verif.Props.Desc
import Verif.Check.Static
import Verif.Check.AnyTests
import Verif.Check.PolyTests
import Verif.Check.DpvTests
import Verif.Check.Agree
import Verif.Model.Layout
import Verif.Props.Layout
import Verif.Model.Elem
import Verif.Props.Elem
import Verif.Model.Cpp17
import Verif.Props.Cpp17
import Verif.Model.BoolField
import Verif.Props.BoolField
import Verif.Model.Concepts
import Verif.Props.Concepts
import Verif.Model.ElemRef
import Verif.Spec.ElemRef
import Verif.Props.ElemRef
import Verif.Props.SwarmVisitor
import Verif.Props.VisitDecay
import Verif.Model.ValueAlloc
import Verif.Props.ValueAlloc
import Verif.Model.AnyVector
import Verif.Props.AnyVector
import Verif.Model.MemberNames
import Verif.Props.MemberNames
import Verif.Props.SwitchUse
import Verif.Model.DpvReq
import Verif.Spec.DpvReq
import Verif.Props.DpvReq
import Verif.Model.CopyCall
import Verif.Model.SwarmRange
import Verif.Props.CopyCall
import Verif.Props.SwarmRange
import Verif.Model.CtorReentry
import Verif.Spec.CtorReentry
import Verif.Props.CtorReentry
import Verif.Model.DpvFine
import Verif.Spec.DpvFine
import Verif.Lemmas.DpvFine
import Verif.Props.DpvFine
import Verif.Props.DpvFine2
import Verif.Props.DpvFine3
import Verif.Props.Fate
import Verif.Props.MethodProg
import Verif.Props.SwarmReentry
import Verif.Props.SwarmThreads
import Verif.Props.DpvSpans
import Verif.Props.NestedCmp
import Verif.Props.UsesAlloc
import Verif.Props.AnyKeys
import Verif.Check.AgreeDpv
import Verif.Check.AgreeCtor
import Verif.Props.AllocReq
import Verif.Props.Traits
import Verif.Check.AgreeReq
import Verif.Props.Matcher
import Verif.Props.DpvSpansExn
import Verif.Props.Headers
import Verif.Props.VisitCost
import Verif.Props.TypeNames
import Verif.Props.ConstLookup
import Verif.Props.DpvCost
import Verif.Props.DpvKeep
import Verif.Props.AnyReuse
import Verif.Props.SwitchCost
import Verif.Props.DpvRecover
