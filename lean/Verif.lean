import Verif.Props.Header
import Verif.Props.PacketDecoder
import Verif.Props.Summary
import Verif.Props.Groups
import Verif.Props.Timecode
import Verif.Props.Pn
import Verif.Props.Frame
import Verif.Props.ReedSolomon
import Verif.Props.RsStage
import Verif.Props.Packets
import Verif.Props.Sync
import Verif.Props.Pipeline
import Verif.Props.EndToEnd
import Verif.Props.Merge
import Verif.Props.Filter
import Verif.Props.Diff
import Verif.Props.NumberRanges
import Verif.Props.Info
import Verif.Props.Framing
import Verif.Props.Sizes
import Verif.Props.Commands
import Verif.Props.Termination
import Verif.Props.MergeCommand
import Verif.Props.FramingConfig
import Verif.Proofs.Streaming
import Verif.Props.Streaming
import Verif.Model.Python
import Verif.Props.Python
import Verif.Spec.RsCode
import Verif.Props.RsCode
import Verif.Props.Abandon
import Verif.Props.CommandTotal
import Verif.Props.PacketSemantics
import Verif.Props.Idle
import Verif.Props.Writes
import Verif.Props.Loss
import Verif.Props.InputErrors
import Verif.Props.HelpText
import Verif.Props.Gaps
import Verif.Props.LossPipeline
import Verif.Props.Rollover
import Verif.Spec.Interrupts
import Verif.Proofs.SyncInterrupt
import Verif.Props.Interrupts
import Verif.Props.Report
import Verif.Props.MergeHelp
import Verif.Props.ConfigFlags
import Verif.Props.ReadErrors
import Verif.Props.AnyReads
import Verif.Props.FramingTotal
import Verif.Props.FramingErrors
import Verif.Model.Json
import Verif.Spec.Json
import Verif.Proofs.Json
import Verif.Props.Json
import Verif.Model.Stdout
import Verif.Props.Stdout
import Verif.Spec.DiffText
import Verif.Props.DiffText
import Verif.Props.FilterMerge
import Verif.Props.MergeSteps
import Verif.Props.MergeParts
import Verif.Props.Concat
import Verif.Proofs.SyncStreaming
import Verif.Props.StreamingPipeline
import Verif.Spec.Chunks
import Verif.Proofs.Chunks
import Verif.Model.BufReader
import Verif.Props.Chunks
import Verif.Props.WritesOnly
import Verif.Model.Crash
import Verif.Props.Crash
import Verif.Model.LazyGroups
import Verif.Props.EndOfInput
import Verif.Model.PatternHits
import Verif.Model.Work
import Verif.Props.PatternHits
import Verif.Props.Prompt
import Verif.Props.ConcatFrames
import Verif.Props.Order
import Verif.Props.BitErrors
import Verif.Props.DataErrors
import Verif.Props.CucOrder
import Verif.Props.Slips
import Verif.Props.CcsdsCode
import Verif.Proofs.Encoder
import Verif.Props.Transmitter
import Verif.Props.Link
import Verif.Props.Spoil
import Verif.Props.Cut
import Verif.Props.Stations
import Verif.Props.Accounting
import Verif.Props.TmFrames
import Verif.Props.Regroup
import Verif.Props.Agreement
import Verif.Props.Copying
import Verif.Props.LinkFraming
import Verif.Props.RollReport
import Verif.Props.LinkPlain
import Verif.Model.Builders
import Verif.Props.Settings
import Verif.UnitTests
import Verif.Conformance
import Verif.Cases.Packet
import Verif.Cases.Frames
import Verif.Cases.Merge
import Verif.Cases.Commands
import Verif.Cases.Framing
import Verif.Cases.Sync
import Verif.Cases.Rs
import Verif.Cases.Files
import Verif.Cases.Links
import Verif.Cases.More
import Verif.Cases.Last
import Verif.Props.Channels
import Verif.Props.Recording
import Verif.Props.Work
import Verif.Props.Volume
import Verif.Cases.Volume
import Verif.Props.Padding
import Verif.Props.HeaderDamage
import Verif.Props.MergeCheck
import Verif.Props.WhichCopy
import Verif.Props.DamagedMerge
import Verif.Props.Resume
import Verif.Props.Again
import Verif.Props.LateCounts
import Verif.Props.MergeRepairs
import Verif.Props.LateFrames
