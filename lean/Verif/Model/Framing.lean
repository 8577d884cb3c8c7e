import Verif.Model.Pipeline
/-!
# `ccsds-cmd/src/frame.rs`

Not modelled: failing writes (see `Model.Writer`), rendering of the summary (see `Model.Report`, `Model.Json`).
-/
namespace Ccsds.Framing

/-- frame.rs:16-42: the counters that `Info` and `Summary` have in common (`usize` fields are `Nat`) -/
structure Tally where
  frames : Nat
  bytes : Nat
  missing : Nat
  corrected : Nat
  uncorrectable : Nat
  ok : Nat
  error : Nat
  notPerformed : Nat
  deriving DecidableEq

/-- `#[derive(Default)]` -/
def Tally.default : Tally := ⟨0, 0, 0, 0, 0, 0, 0, 0⟩

/-- frame.rs:16-28 `Info` -/
structure Info where
  vcid : U16
  tally : Tally
  deriving DecidableEq

/-- frame.rs:30-42 `Summary` -/
structure Summary where
  tally : Tally
  vcids : List Info
  deriving DecidableEq

/-- frame.rs:49-62 the arguments -/
structure Args where
  length : Nat
  pn : Bool
  keepFill : Bool
  reedSolomon : Option U8
  detect : Bool
  correct : Bool
  virtualfill : Nat
  threads : Option Nat
  buffersize : Nat
  incl : List U16
  excl : List U16
  /-- an output file is given -/
  output : Bool

/-- frame.rs:64-83 the pipeline. `workers`: the number of threads rayon starts for the requested number. (`with_virtual_fill` is skipped for 0,
its default.) -/
def config (a : Args) (workers : Nat) : Pipeline.Config :=
  let interleave := a.reedSolomon.getD 0
  let c := Pipeline.Config.new (a.length + RS.PARITY_LEN * interleave.toNat)
  let c := if !a.pn then c.withoutDerandomization else c
  match a.reedSolomon with
  | none => c
  | some il => c.withRs ⟨il, a.virtualfill, a.detect || a.correct, a.correct⟩ ⟨a.buffersize, workers⟩

/-- frame.rs:95-103 whether the loop body goes on -/
def selected (a : Args) (f : Frame) : Bool :=
  !(f.isFill && !a.keepFill) && !(!a.incl.isEmpty && !a.incl.contains f.header.vcid) && !(!a.excl.isEmpty && a.excl.contains f.header.vcid)

/-- frame.rs:104-136 the counters of one of the two tallies -/
def Tally.add (t : Tally) (f : Frame) : Tally :=
  let t := { t with frames := t.frames + 1, bytes := t.bytes + f.data.length, missing := t.missing + f.missing.toNat }
  match f.integrity with
  | some .ok => { t with ok := t.ok + 1 }
  | some .corrected => { t with corrected := t.corrected + 1 }
  | some .uncorrectable | some .notCorrected => { t with uncorrectable := t.uncorrectable + 1 }
  | some .failed => { t with error := t.error + 1 }
  | none => { t with notPerformed := t.notPerformed + 1 }

/-- frame.rs:137-142 not `continue` -/
def writable (f : Frame) : Bool :=
  match f.integrity with
  | some .uncorrectable | some .notCorrected | some .failed => false
  | _ => true

/-- The state of the loop: `summary`, `vcids`, and the buffers written to the output file. -/
structure State where
  summary : Tally
  vcids : HMap U16 Info
  written : List (List U8)

/-- frame.rs:94-147 the loop body. `frame.data[..length]` panics on shorter data. -/
def step (a : Args) (st : State) (f : Frame) : Outcome State :=
  if !selected a f then .ret st
  else
    let channel := (st.vcids.get? f.header.vcid).getD ⟨0, .default⟩
    let channel : Info := ⟨f.header.vcid, channel.tally.add f⟩
    let st := { st with summary := st.summary.add f, vcids := st.vcids.insert f.header.vcid channel }
    if !writable f then .ret st
    else if !a.output then .ret st
    else if f.data.length < a.length then .panic
    else .ret { st with written := st.written ++ [f.data.take a.length] }

/-- frame.rs:94-147 the loop -/
def loop (a : Args) : State → List Frame → Outcome State
  | st, [] => .ret st
  | st, f :: fs => do
    let st ← step a st f
    loop a st fs

/-- frame.rs:85-154 `frame_aos` from the frames of the pipeline on: the summary and what was written. The iteration order of the `HashMap` is
arbitrary. -/
inductive Finishes (a : Args) (frames : List Frame) : Summary → List (List U8) → Prop where
  | mk {st : State} {infos : List Info} : loop a ⟨.default, [], []⟩ frames = .ret st → infos.Perm (st.vcids.map (·.2)) →
      Finishes a frames ⟨st.summary, infos.mergeSort (fun x y => x.vcid ≤ y.vcid)⟩ st.written

/-- frame.rs:49-154 `frame_aos` on an input that the pipeline reads to its end. -/
inductive Runs (b : Build) (k : Codec) (a : Args) (workers : Nat) (r : Reader) : Summary → List (List U8) → Prop where
  | plain {frames : List Frame} {s : Summary} {w : List (List U8)} : a.reedSolomon = none →
      Pipeline.Outputs b (config a workers) r frames true → Finishes a frames s w → Runs b k a workers r s w
  | rs {il : U8} {st : RsStage.State} {s : Summary} {w : List (List U8)} : a.reedSolomon = some il →
      Pipeline.Runs b k (config a workers) r st → st.cons = .ended → Finishes a st.got s w → Runs b k a workers r s w

end Ccsds.Framing
