import Verif.Props.Registers
import Verif.Props.RegisterInit
import Verif.Props.SameKind
import Verif.Props.Ids
import Verif.Props.Kernels
import Verif.Props.Gates
import Verif.Props.Simulator
import Verif.Props.Unitary
import Verif.Props.Circuit
import Verif.Props.Contexts
import Verif.Props.Templates
import Verif.Props.CircuitState
import Verif.Props.Qasm
import Verif.Props.Qir
import Verif.Props.MixedProperty
import Verif.Props.Run
import Verif.Props.Sampling
import Verif.Props.TemplateMap
import Verif.Props.Calls
import Verif.Props.QasmMeaning
import Verif.Props.QirMeaning
import Verif.Props.QirInto
import Verif.Props.QirModule
import Verif.Props.Rounding
import Verif.Props.IdThreads
import Verif.Props.Threads
import Verif.Props.Interrupt
import Verif.Props.Eval
import Verif.Props.ParamCalls
import Verif.Props.OpEq
import Verif.Props.LockedAttr
import Verif.Props.QirEq
import Verif.Props.OpShape
import Verif.Props.QirLimits
import Verif.Proofs.Branches
import Verif.Props.Branches
import Verif.Proofs.TemplateBranches
import Verif.Props.TemplateMeasure
import Verif.Props.Loads
import Verif.Props.Session
import Verif.Model.Generator
import Verif.Props.Generator
import Verif.Props.Density
import Verif.Props.Custom
import Verif.Model.Decomposition
import Verif.Props.Replace
import Verif.Props.Checked
import Verif.Props.Merge
import Verif.Model.SimThreads
import Verif.Props.SimThreads
import Verif.Proofs.Defer
import Verif.Proofs.DeferChance
import Verif.Props.Defer
import Verif.Proofs.Repeated
import Verif.Props.Repeated
import Verif.Spec.Identities
import Verif.Proofs.Identities
import Verif.Proofs.IdentitiesTwo
import Verif.Props.Identities
import Verif.Spec.Classical
import Verif.Proofs.Classical
import Verif.Props.Classical
import Verif.Props.MergeDensity
import Verif.Model.Repr
import Verif.Spec.Repr
import Verif.Proofs.Repr
import Verif.Props.Repr
import Verif.Spec.UnitaryWords
import Verif.Proofs.UnitaryWords
import Verif.Props.UnitaryWords
import Verif.Spec.DensityMatrix
import Verif.Proofs.DensityMatrix
import Verif.Props.DensityMatrix
import Verif.Spec.ClassicalMix
import Verif.Proofs.ClassicalMix
import Verif.Props.ClassicalMix
import Verif.Model.IdCalls
import Verif.Proofs.IdCalls
import Verif.Props.IdCalls
import Verif.Model.DirectRegs
import Verif.Spec.DirectRegs
import Verif.Proofs.DirectRegs
import Verif.Props.DirectRegs
import Verif.Model.DirectOps
import Verif.Spec.DirectOps
import Verif.Props.DirectOps
import Verif.Props.Noise
import Verif.Spec.Frame
import Verif.Proofs.Frame
import Verif.Props.Frame
import Verif.Props.KeywordQubits
import Verif.Props.FrameProgram
import Verif.Proofs.FrameObjects
import Verif.Props.FrameObjects
import Verif.Spec.Refused
import Verif.Props.Refused
import Verif.Props.RefusedItems
import Verif.Props.RefusedTemplates
import Verif.Props.RefusedReset
import Verif.Props.QirExternals
import Verif.Props.GetBit
