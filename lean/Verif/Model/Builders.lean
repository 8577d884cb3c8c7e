import Verif.Model.Pipeline
/-!
# The options of the pipeline: `RsOpts` of `ccsds-lib/src/framing/pipeline/reed_solomon.rs`, and its use in `builder.rs`
-/
namespace Ccsds

/-- pipeline/reed_solomon.rs:9-17 `RsOpts` -/
structure RsOpts where
  interleave : U8
  virtualFill : Nat
  numThreads : Nat
  bufferSize : Nat
  detect : Bool
  correct : Bool
  deriving DecidableEq

/-- pipeline/reed_solomon.rs:20-29 -/
def RsOpts.new (interleave : U8) : RsOpts :=
  { interleave, virtualFill := 0, numThreads := 0, detect := true, correct := true, bufferSize := 50 }
/-- pipeline/reed_solomon.rs:32-35 -/
def RsOpts.withVirtualFill (o : RsOpts) (n : Nat) : RsOpts := { o with virtualFill := n }
/-- pipeline/reed_solomon.rs:39-42 -/
def RsOpts.withNumThreads (o : RsOpts) (n : Nat) : RsOpts := { o with numThreads := n }
/-- pipeline/reed_solomon.rs:45-48 -/
def RsOpts.withCorrection (o : RsOpts) (e : Bool) : RsOpts := { o with correct := e }
/-- pipeline/reed_solomon.rs:51-54 -/
def RsOpts.withDetection (o : RsOpts) (e : Bool) : RsOpts := { o with detect := e }
/-- pipeline/reed_solomon.rs:57-60 -/
def RsOpts.withBufferSize (o : RsOpts) (n : Nat) : RsOpts := { o with bufferSize := n }

/-- pipeline/reed_solomon.rs:79-83: what the algorithm is given -/
def RsOpts.algorithm (o : RsOpts) : RS.Opts := ⟨o.interleave, o.virtualFill, o.detect, o.correct⟩

/-- pipeline/reed_solomon.rs:69-77, 85: what the thread pool and the channel are given. rayon takes `num_threads(0)` as "choose automatically"; `auto` is the positive number it
chooses (from the environment or the number of processors). -/
def RsOpts.pool (o : RsOpts) (auto : Nat) : RsStage.Params := ⟨o.bufferSize, if o.numThreads = 0 then auto else o.numThreads⟩

/-- builder.rs:8-13 `Pipeline`, with the options as they are given -/
structure PipelineOpts where
  derandomize : Bool
  rs : Option RsOpts
  blockLength : Nat

/-- builder.rs:20-26 -/
def PipelineOpts.new (caduLength : Nat) : PipelineOpts := ⟨true, none, caduLength⟩
/-- builder.rs:28-31 -/
def PipelineOpts.withoutDerandomization (c : PipelineOpts) : PipelineOpts := { c with derandomize := false }
/-- builder.rs:33-36 -/
def PipelineOpts.withRs (c : PipelineOpts) (o : RsOpts) : PipelineOpts := { c with rs := some o }

/-- builder.rs:38-55: what `start` runs -/
def PipelineOpts.config (c : PipelineOpts) (auto : Nat) : Pipeline.Config :=
  ⟨c.derandomize, c.rs.map fun o => (o.algorithm, o.pool auto), c.blockLength⟩

end Ccsds
