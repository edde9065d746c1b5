import Verif.Lemmas.AltExp
import Verif.Lemmas.AltFixed
import Verif.Lemmas.AltMat
import Verif.Lemmas.AltRun
import Verif.Lemmas.CircuitOps
import Verif.Lemmas.Clockwise
import Verif.Lemmas.CnotBlock
import Verif.Lemmas.CnotCodes
import Verif.Lemmas.CnotExp
import Verif.Lemmas.CnotFixed
import Verif.Lemmas.CnotMap
import Verif.Lemmas.CnotMerge
import Verif.Lemmas.CnotRun
import Verif.Lemmas.CnotTable
import Verif.Lemmas.CnotValues
import Verif.Lemmas.Commute
import Verif.Lemmas.CommuteGrid
import Verif.Lemmas.Coords
import Verif.Lemmas.CssRounds
import Verif.Lemmas.DataGen
import Verif.Lemmas.DetBuild
import Verif.Lemmas.DetExact
import Verif.Lemmas.DetGates
import Verif.Lemmas.DetHistory
import Verif.Lemmas.DetInv
import Verif.Lemmas.DetMemory
import Verif.Lemmas.DetRounds
import Verif.Lemmas.Detectors
import Verif.Lemmas.Dict
import Verif.Lemmas.DictUpdate
import Verif.Lemmas.Does
import Verif.Lemmas.Faults
import Verif.Lemmas.FaultsCnot
import Verif.Lemmas.FaultsCnotCodes
import Verif.Lemmas.FaultsCnotExp
import Verif.Lemmas.FaultsCodes
import Verif.Lemmas.FaultsFinal
import Verif.Lemmas.FaultsGate
import Verif.Lemmas.FaultsGoogle
import Verif.Lemmas.FaultsGrid
import Verif.Lemmas.FaultsHooks
import Verif.Lemmas.FaultsLines
import Verif.Lemmas.FaultsMemory
import Verif.Lemmas.FaultsMerge
import Verif.Lemmas.FaultsPair
import Verif.Lemmas.FaultsPairProgram
import Verif.Lemmas.FaultsPull
import Verif.Lemmas.FaultsRound
import Verif.Lemmas.FaultsRows
import Verif.Lemmas.FaultsTurn
import Verif.Lemmas.FoldTotal
import Verif.Lemmas.Frame
import Verif.Lemmas.GateBlocks
import Verif.Lemmas.GateCodes
import Verif.Lemmas.GateEffects
import Verif.Lemmas.GateExp
import Verif.Lemmas.GateMat
import Verif.Lemmas.GateRun
import Verif.Lemmas.GoogleEff
import Verif.Lemmas.GoogleFinal
import Verif.Lemmas.GoogleMemory
import Verif.Lemmas.GoogleRounds
import Verif.Lemmas.Grid
import Verif.Lemmas.GridBuild
import Verif.Lemmas.GridLabels
import Verif.Lemmas.Hilbert
import Verif.Lemmas.HilbertCircuit
import Verif.Lemmas.HilbertFrame
import Verif.Lemmas.HilbertRun
import Verif.Lemmas.Invariant
import Verif.Lemmas.Kick
import Verif.Lemmas.Layers
import Verif.Lemmas.Layout
import Verif.Lemmas.LayoutInv
import Verif.Lemmas.LayoutUtil
import Verif.Lemmas.LogicalGates
import Verif.Lemmas.MeasRecord
import Verif.Lemmas.Memory
import Verif.Lemmas.MemoryCodes
import Verif.Lemmas.MemoryFinal
import Verif.Lemmas.MemoryGrid
import Verif.Lemmas.MemoryRun
import Verif.Lemmas.MergeAll
import Verif.Lemmas.MergeInit
import Verif.Lemmas.MergeMeas
import Verif.Lemmas.MergeRounds
import Verif.Lemmas.MergeRun
import Verif.Lemmas.MergeTail
import Verif.Lemmas.NewStabDict
import Verif.Lemmas.NoiseElems
import Verif.Lemmas.NoiseFaults
import Verif.Lemmas.NoiseLocal
import Verif.Lemmas.NoiseLocalCnot
import Verif.Lemmas.NoiseLocalExp
import Verif.Lemmas.NoiseLocalMerge
import Verif.Lemmas.NoiseModels
import Verif.Lemmas.Outs
import Verif.Lemmas.PairProgram
import Verif.Lemmas.PipeGeometry
import Verif.Lemmas.PipeRounds
import Verif.Lemmas.Placed
import Verif.Lemmas.Plotter
import Verif.Lemmas.ProgramCodes
import Verif.Lemmas.ProgramRun
import Verif.Lemmas.Record
import Verif.Lemmas.RotCount
import Verif.Lemmas.RotGeometry
import Verif.Lemmas.RotLayout
import Verif.Lemmas.RotLoops
import Verif.Lemmas.RotRounds
import Verif.Lemmas.RotS
import Verif.Lemmas.RotSSigned
import Verif.Lemmas.RotSTables
import Verif.Lemmas.RoundGrid
import Verif.Lemmas.RoundSpec
import Verif.Lemmas.Rounds
import Verif.Lemmas.SGate
import Verif.Lemmas.SSigned
import Verif.Lemmas.Setup
import Verif.Lemmas.Shuffle
import Verif.Lemmas.Signed
import Verif.Lemmas.Superpose
import Verif.Lemmas.Tables
import Verif.Lemmas.TransBlocks
import Verif.Lemmas.UniformMeas
import Verif.Lemmas.UniformModel
import Verif.Lemmas.UnrotCount
import Verif.Lemmas.UnrotFold
import Verif.Lemmas.UnrotGeometry
import Verif.Lemmas.UnrotH
import Verif.Lemmas.UnrotHSigned
import Verif.Lemmas.UnrotLayout
import Verif.Lemmas.UnrotRounds
import Verif.Lemmas.UnrotS
import Verif.Lemmas.UnrotSSigned
import Verif.Lemmas.Usage
import Verif.Lemmas.UsageBlocks
import Verif.Lemmas.UsageExp
import Verif.Lemmas.UsageMerge
import Verif.Lemmas.UsageModels
import Verif.Lemmas.UsagePair
import Verif.Lemmas.UsageRounds
import Verif.Lemmas.UsageTrans
import Verif.Lemmas.Witness
import Verif.Lemmas.Workflow
import Verif.Model.Blocks
import Verif.Model.CircuitOps
import Verif.Model.DataGen
import Verif.Model.Detectors
import Verif.Model.Experiments
import Verif.Model.IdleProbs
import Verif.Model.Layout
import Verif.Model.LayoutLib
import Verif.Model.LayoutUtil
import Verif.Model.LogGates
import Verif.Model.MeasRecord
import Verif.Model.ModelUtil
import Verif.Model.NoiseModels
import Verif.Model.Plotter
import Verif.Model.Py
import Verif.Model.Setup
import Verif.Model.Stim
import Verif.Props.CircuitOps
import Verif.Props.CnotDistance
import Verif.Props.CnotExp
import Verif.Props.CnotNoise
import Verif.Props.CnotTurnDistance
import Verif.Props.CnotTurnNoise
import Verif.Props.CnotTurns
import Verif.Props.DataGen
import Verif.Props.DetUpdate
import Verif.Props.DetectorCircuits
import Verif.Props.Detectors
import Verif.Props.FaultDistance
import Verif.Props.GateExp
import Verif.Props.Google
import Verif.Props.Hilbert
import Verif.Props.Layout
import Verif.Props.LayoutUtil
import Verif.Props.LogicalGates
import Verif.Props.MeasRecord
import Verif.Props.Memory
import Verif.Props.Merge
import Verif.Props.MergeRounds
import Verif.Props.ModelUtil
import Verif.Props.NoiseDistance
import Verif.Props.NoiseModels
import Verif.Props.NoiseOnce
import Verif.Props.PairProgram
import Verif.Props.PairProgramDistance
import Verif.Props.PairProgramNoise
import Verif.Props.Plotter
import Verif.Props.PlotterCodes
import Verif.Props.Program
import Verif.Props.RepeatedCnot
import Verif.Props.RotLayout
import Verif.Props.RoundEffects
import Verif.Props.Rounds
import Verif.Props.Setup
import Verif.Props.SetupVars
import Verif.Props.TransCnot
import Verif.Props.TransH
import Verif.Props.TransS
import Verif.Props.TransSRot
import Verif.Props.UnrotLayout
import Verif.Props.Usage
import Verif.Props.UsageExp
import Verif.Props.UsageTrans
import Verif.Props.Workflow
import Verif.Spec.CircuitOps
import Verif.Spec.CnotExp
import Verif.Spec.Code
import Verif.Spec.DataGen
import Verif.Spec.DetUpdate
import Verif.Spec.Detectors
import Verif.Spec.Faithful
import Verif.Spec.Faults
import Verif.Spec.Frame
import Verif.Spec.GateExp
import Verif.Spec.Google
import Verif.Spec.Grid
import Verif.Spec.Hilbert
import Verif.Spec.History
import Verif.Spec.Layout
import Verif.Spec.LayoutUtil
import Verif.Spec.LogicalGates
import Verif.Spec.Memory
import Verif.Spec.Merge
import Verif.Spec.Noise
import Verif.Spec.NoiseFaults
import Verif.Spec.PairProgram
import Verif.Spec.Plotter
import Verif.Spec.Program
import Verif.Spec.Round
import Verif.Spec.Setup
import Verif.Spec.Signed
import Verif.Spec.TransGates
import Verif.Spec.TwoCodes
import Verif.Spec.Usage
import Verif.Spec.Workflow
