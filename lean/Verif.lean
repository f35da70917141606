import Verif.Rt.Method
import Verif.Rt.System
import Verif.Spec.Method
import Verif.Lemmas.Scan
import Verif.Lemmas.Refine
import Verif.Lemmas.Evo
import Verif.Lemmas.SysInv
import Verif.Lemmas.Sole
import Verif.Props.Times
import Verif.Lemmas.Target
import Verif.Lemmas.Sim
import Verif.Props.Dispatch
import Verif.Lemmas.Ret
import Verif.Props.Return
import Verif.Lemmas.Seq
import Verif.Lemmas.SeqSpec
import Verif.Props.Sequence
import Verif.Lemmas.Drop
import Verif.Lemmas.Project
import Verif.Props.Object
import Verif.Props.Independence
import Verif.Props.Static
import Verif.Props.Conc
import Verif.Props.ConcProgress
import Verif.Props.ConcStatic
import Verif.Props.ConcOrder
import Verif.Props.ConcSeq
import Verif.Conc.Weak
import Verif.Lemmas.ConcWeak
import Verif.Spec.HappensBefore
import Verif.Props.ConcWeak
import Verif.Props.ConcWeakOrder
import Verif.Conc.Nested
import Verif.Lemmas.ConcNested
import Verif.Lemmas.ConcNestedFlat
import Verif.Props.ConcNested
import Verif.Lemmas.ConcNestedStack
import Verif.Props.ConcNestedLive
import Verif.Props.DeriveTypes
import Verif.Lemmas.FindLts
import Verif.Props.DerivePaths
import Verif.Props.DeriveOwned
import Verif.Props.DeriveMentions
import Verif.Props.DeriveMentionsEx
import Verif.Props.DeriveMerge
import Verif.Props.DeriveSplit
import Verif.Props.DeriveAttrs
import Verif.Props.DeriveDouble
import Verif.Props.DeriveVisibility
import Verif.Props.DeriveClosures
import Verif.Props.DeriveBuild
import Verif.Props.DeriveConcretize
import Verif.Props.DeriveModule
import Verif.Props.DeriveStruct
import Verif.Props.DeriveObjects
import Verif.Props.DeriveMessages
import Verif.Props.DeriveMockable
import Verif.Props.DeriveBuilt
import Verif.Props.DeriveMacros
import Verif.Props.DeriveEntry
import Verif.Props.DeriveExec
import Verif.Props.Messages
import Verif.Rt.Destructors
import Verif.Spec.Destructors
import Verif.Lemmas.Destructors
import Verif.Props.Destructors
import Verif.Derive.Relay
import Verif.Spec.Relay
import Verif.Props.DeriveRelay
import Verif.Rt.Async
import Verif.Spec.Async
import Verif.Props.Async
import Verif.Conc.StaticNested
import Verif.Spec.StaticNested
import Verif.Lemmas.ConcStaticNested
import Verif.Props.ConcStaticNested
import Verif.Props.ConcStaticNestedLive
import Verif.Props.ConcStaticNestedCount
import Verif.Derive.Scopes
import Verif.Spec.Scopes
import Verif.Lemmas.Scopes
import Verif.Lemmas.ScopesBuild
import Verif.Lemmas.ScopesSites
import Verif.Props.DeriveScopes
import Verif.Props.DeriveScopesEx
import Verif.Props.DerivePlaced
import Verif.Derive.SelfArgs
import Verif.Spec.SelfArgs
import Verif.Props.DeriveSelfArgs
import Verif.Props.DeriveSubstructs
import Verif.Props.DeriveProgram
import Verif.Props.DeriveProgramMessages
import Verif.Spec.Reference
import Verif.Lemmas.Reference
import Verif.Lemmas.ReferenceRun
import Verif.Props.Reference
import Verif.Props.Separate
import Verif.Props.Forget
import Verif.Spec.Linear
import Verif.Lemmas.LinearStep
import Verif.Lemmas.LinearCall
import Verif.Lemmas.Linear
import Verif.Props.ConcLinear
import Verif.Conc.Mixed
import Verif.Spec.Mixed
import Verif.Lemmas.ConcMixed
import Verif.Props.ConcMixed
import Verif.Props.ConcMixedExamples
import Verif.Spec.MixedOrder
import Verif.Lemmas.ConcMixedSeq
import Verif.Props.ConcMixedSeq
import Verif.Props.ConcMixedSeqExamples
import Verif.Props.ConcMixedUser
import Verif.Spec.Unwind
import Verif.Lemmas.ConcStaticUnwind
import Verif.Props.ConcStaticUnwind
import Verif.Conc.StaticMany
import Verif.Spec.StaticMany
import Verif.Lemmas.ConcStaticMany
import Verif.Props.ConcStaticMany
import Verif.Props.ConcStaticManyLive
import Verif.Props.ConcSeqApart
import Verif.Props.ConcSpillApart
import Verif.Spec.NamesApart
import Verif.Props.DeriveNames
import Verif.Props.DeriveModuleNames
import Verif.Props.DeriveTraitNames
import Verif.Props.DeriveConcretizeScopes
import Verif.Props.DeriveImplTrait
import Verif.Derive.Auto
import Verif.Spec.Auto
import Verif.Props.DeriveAuto
import Verif.Props.DeriveAutoEx
import Verif.Derive.Used
import Verif.Spec.Used
import Verif.Props.DeriveUsed
import Verif.Props.DeriveUsedEx
