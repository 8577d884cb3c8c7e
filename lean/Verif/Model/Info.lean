import Verif.Model.Filter
/-!
# `ccsds-cmd/src/info.rs`

For the rendering see `Model.Report` and `Model.Json`. Epochs are compared through `τ` as in `Model.Merge`.
-/
namespace Ccsds.Info

/-- info.rs:58-65 `Summary`; a `Duration` is a number of nanoseconds -/
structure ISummary where
  total : Nat
  missing : Nat
  first : Option Epoch
  last : Option Epoch
  duration : Int
  deriving DecidableEq

/-- info.rs:58 `#[derive(Default)]` -/
def ISummary.default : ISummary := ⟨0, 0, none, none, 0⟩

/-- `cmp::min` -/
def minE (τ : Epoch → Int) (a b : Epoch) : Epoch := if τ a ≤ τ b then a else b
/-- `cmp::max` -/
def maxE (τ : Epoch → Int) (a b : Epoch) : Epoch := if τ b < τ a then a else b

/-- info.rs:120-129, 131-140. Both epochs are UTC: their difference is the difference of the nanosecond counts. -/
def ISummary.touch (τ : Epoch → Int) (s : ISummary) (e : Epoch) : ISummary :=
  let first := match s.first with | none => e | some c => minE τ e c
  let last := match s.last with | none => e | some c => maxE τ e c
  { s with first := some first, last := some last, duration := (last.nanos : Int) - first.nanos }

/-- The state of the loop of `summarize` (info.rs:90-92). -/
structure State where
  lastSeqid : HMap U16 U16
  apids : HMap U16 ISummary
  summary : ISummary

/-- info.rs:74-79 -/
def cdsDecoder : TimecodeDecoder := TimecodeDecoder.new (.cds 2 2)

/-- info.rs:97-104 `missing` -/
def missingSince (b : Build) (last : Option U16) (cur : U16) : Outcome Nat :=
  match last with
  | none => .ret 0
  | some last => do
    let m ← missingPackets b cur last
    .ret m.toNat

/-- info.rs:94-145 the loop body; `timeDecoder` is `None` with `--timecode none`. The `apids` entry is written back at the end. -/
def step (b : Build) (τ : Epoch → Int) (timeDecoder : Option TimecodeDecoder) (st : State) (p : Packet) : Outcome State := do
  let summary := { st.summary with total := st.summary.total + 1 }
  let missing ← missingSince b (st.lastSeqid.get? p.header.apid) p.header.sequenceId
  let lastSeqid := st.lastSeqid.insert p.header.apid p.header.sequenceId
  let summary := { summary with missing := summary.missing + missing }
  let apid := (st.apids.get? p.header.apid).getD ISummary.default
  let apid := { apid with total := apid.total + 1, missing := apid.missing + missing }
  if !p.header.hasSecondaryHeader then
    .ret ⟨lastSeqid, st.apids.insert p.header.apid apid, summary⟩
  else
    match timeDecoder with
    | none => .ret ⟨lastSeqid, st.apids.insert p.header.apid apid, summary⟩
    | some d => do
      match ← d.decode b p with
      | .error _ => .ret ⟨lastSeqid, st.apids.insert p.header.apid apid, summary⟩
      | .ok e => .ret ⟨lastSeqid, st.apids.insert p.header.apid (apid.touch τ e), summary.touch τ e⟩

/-- info.rs:94-145 the loop -/
def loop (b : Build) (τ : Epoch → Int) (timeDecoder : Option TimecodeDecoder) : State → List Packet → Outcome State
  | st, [] => .ret st
  | st, p :: ps => do
    let st ← step b τ timeDecoder st p
    loop b τ timeDecoder st ps

/-- info.rs:67-72 `Info` without the file name -/
structure Info where
  summary : ISummary
  apids : List (U16 × ISummary)

/-- info.rs:81-155 `summarize`; `none`: a panic. The iteration order of the `HashMap` is arbitrary. -/
inductive Runs (b : Build) (τ : Epoch → Int) (cds : Bool) (r : Reader) : Option Info → Prop where
  | panicked {items : List (Except Error Packet)} : Collects PacketDecoder.next (PacketDecoder.new r) items none → Runs b τ cds r none
  | loopPanicked {items : List (Except Error Packet)} {s : PacketDecoder} : Collects PacketDecoder.next (PacketDecoder.new r) items (some s) →
      loop b τ (if cds then some cdsDecoder else none) ⟨[], [], .default⟩ (oks items) = .panic → Runs b τ cds r none
  | done {items : List (Except Error Packet)} {s : PacketDecoder} {st : State} {entries : List (U16 × ISummary)} :
      Collects PacketDecoder.next (PacketDecoder.new r) items (some s) →
      loop b τ (if cds then some cdsDecoder else none) ⟨[], [], .default⟩ (oks items) = .ret st → entries.Perm st.apids →
      Runs b τ cds r (some ⟨st.summary, entries.mergeSort (fun x y => x.1 ≤ y.1)⟩)

end Ccsds.Info
