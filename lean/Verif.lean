import Verif.Props.Analysis
import Verif.Props.Filter
import Verif.Props.Names
import Verif.Props.Output
import Verif.Props.Symbols
import Verif.Props.Types
import Verif.Props.Build
import Verif.Props.Indirect
import Verif.Props.EndToEnd
import Verif.Props.Machine
import Verif.Props.Thumb
import Verif.Props.Shown
import Verif.Props.CodeSize
import Verif.Props.Abort
import Verif.Props.Total
import Verif.Props.HashOrder
import Verif.Props.Parse
import Verif.Props.ParseModule
import Verif.Props.Driver
import Verif.Props.Loaded
import Verif.Props.Tool
import Verif.Props.Top
import Verif.Proof.TotalIff
import Verif.Props.TotalIff
import Verif.Props.IndirectExact
import Verif.Props.Figures
import Verif.Props.Log
import Verif.Props.LogEnd
import Verif.Proof.UnitTests
import Verif.Props.ThumbRun
import Verif.Props.Exec
import Verif.Props.Release
import Verif.Props.Start
import Verif.Props.Targets
import Verif.Props.Displayed
import Verif.Props.ToolExec
import Verif.Props.ToolFigures
import Verif.Props.Edges
import Verif.Props.IrExec
import Verif.Props.IndirectIff
import Verif.Props.ToolIrExec
import Verif.Spec.Change
import Verif.Proof.Change
import Verif.Props.Change
import Verif.Props.WrapperStatus
import Verif.Spec.IrRead
import Verif.Proof.IrSound
import Verif.Proof.IrSoundItem
import Verif.Proof.IrExact
import Verif.Props.ParseSound
import Verif.Spec.WrapperArgs
import Verif.Proof.WrapperArgs
import Verif.Props.WrapperArgs
import Verif.Props.ThumbBit
import Verif.Spec.Need
import Verif.Proof.Need
import Verif.Props.Need
import Verif.Model.LogText
import Verif.Proof.LogText
import Verif.Props.LogText
import Verif.Spec.ThumbAll
import Verif.Proof.ThumbAll
import Verif.Props.ThumbAll
import Verif.Spec.Dropped
import Verif.Spec.Interrupt
import Verif.Proof.Interrupt
import Verif.Props.Interrupt
import Verif.Props.Recursion
import Verif.Props.Readme
import Verif.Props.Stderr
import Verif.Props.ToolInterrupt
import Verif.Spec.Pools
import Verif.Proof.Pools
import Verif.Props.Pools
import Verif.Props.Choices
import Verif.Proof.Write
import Verif.Props.Write
import Verif.Model.Report
import Verif.Spec.Start
import Verif.Spec.Report
import Verif.Proof.Report
import Verif.Proof.ReportIr
import Verif.Proof.ReportCode
import Verif.Proof.ReportMachine
import Verif.Proof.ReportEnd
import Verif.Props.Report
import Verif.Spec.Shared
import Verif.Proof.Shared
import Verif.Proof.SharedLocal
import Verif.Props.Shared
import Verif.Proof.SharedExec
import Verif.Props.SharedExec
import Verif.Proof.SharedIr
import Verif.Props.SharedIr
import Verif.Model.Debug
import Verif.Proof.Debug
import Verif.Props.Debug
import Verif.Props.SharedTool
import Verif.Proof.SharedNames
import Verif.Proof.SharedLog
import Verif.Proof.SharedEdges
import Verif.Props.SharedEdges
import Verif.Proof.SharedSingle
import Verif.Props.SharedInterrupt
import Verif.Proof.IrWeak
import Verif.Props.SharedMachine
import Verif.Spec.SharedFigures
import Verif.Proof.SharedFigures
import Verif.Props.SharedFigures
import Verif.Proof.SharedChange
import Verif.Props.SharedChange
import Verif.Props.SharedListing
import Verif.Spec.SharedAbort
import Verif.Proof.SharedAbort
import Verif.Props.SharedAbort
import Verif.Props.SharedTotal
import Verif.Proof.SharedGaps
import Verif.Props.SharedGaps
import Verif.Props.SharedExplained
import Verif.Props.SharedMore
import Verif.Spec.SharedIndirect
import Verif.Proof.SharedIndirect
import Verif.Props.SharedIndirect
import Verif.Props.SharedChoices
import Verif.Props.SharedReport
import Verif.Props.AnyEdges
import Verif.Props.AnyIndirect
import Verif.Props.AnyFigures
import Verif.Props.AnyCode
import Verif.Props.AnyAbort
import Verif.Props.AnyReport
import Verif.Props.AnyGaps
