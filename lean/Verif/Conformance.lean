import Verif.Model.Pipeline
import Verif.Model.Packets
import Verif.Model.Summary
import Verif.UnitTests
import Verif.Props.CcsdsCode
/-!
# Running the model on the fixtures of the repository

Not part of any proof. `lake env lean --run Verif/Conformance.lean unit` runs the tests of `Verif.UnitTests`. `lake env lean --run Verif/Conformance.lean cadus <file> <block length> <interleave>` (in `/verif/lean`) runs the
*model* (`Sync.next`, `Pn.derandomize`, `FrameDecoder.next`, `RS.job`, `FramedPackets.next`) on a file of CADUs and prints what comes out, the packets
also as a file; `conformance/check.py` compares that with what the repository's fixture notes say another decoder found
(`ccsds-lib/tests/fixtures/snpp_synchronized_cadus.txt`). The code words are not checked or corrected: the codec handed to `RS.job` calls every message correct.
-/
namespace Ccsds.Conformance

/-- Calls `next` until it returns `None` or panics, at most `fuel` times. -/
def run {σ α : Type} (next : σ → Outcome (Option α × σ)) : Nat → σ → List α → List α × String
  | 0, _, acc => (acc.reverse, "out of fuel")
  | fuel + 1, s, acc =>
    match next s with
    | .panic => (acc.reverse, "panic")
    | .ret (none, _) => (acc.reverse, "end")
    | .ret (some a, s) => run next fuel s (a :: acc)

def codec : Codec := ⟨fun _ => false, fun m => (.ok, some m)⟩

def jobs (o : RS.Opts) (fs : List Frame) : List Frame :=
  fs.filterMap fun f => match RS.job codec o f with | .ret f => some f | .panic => none

def cadus (path out : String) (len : Nat) (interleave : Nat) : IO Unit := do
  let bytes ← IO.FS.readBinFile path
  let content : List U8 := bytes.toList.map fun x => x.toBitVec
  let (items, how) := run Sync.next 1000000 (Sync.iter (Reader.ofBytes content) Sync.ASM len) []
  let blocks := items.filterMap fun it => match it with | .ok b => some b | .error _ => none
  IO.println s!"blocks {items.length} ok {blocks.length} {how}"
  for b in blocks do
    IO.println s!"block offset {b.loc.offset} bit {b.loc.bit.toNat} last {b.last} length {b.data.length}"
  let prepared := blocks.map (Pipeline.prep true)
  let (frames, how) := run (FrameDecoder.next ⟨true⟩) 1000000 (FrameDecoder.new prepared) []
  IO.println s!"frames {frames.length} {how}"
  for f in frames do
    IO.println s!"frame scid {f.header.scid.toNat} vcid {f.header.vcid.toNat} counter {f.header.counter.toNat} missing {f.missing.toNat}"
  let corrected := if interleave = 0 then frames else jobs ⟨BitVec.ofNat 8 interleave, 0, true, true⟩ frames
  IO.println s!"corrected {corrected.length} bytes {(corrected.map (·.data.length)).sum}"
  let (packets, how) := run FramedPackets.next 1000000 (FramedPackets.new corrected 0 0) []
  IO.println s!"packets {packets.length} {how}"
  for p in packets do
    IO.println s!"packet apid {p.header.apid.toNat} seqid {p.header.sequenceId.toNat} size {p.data.length}"
  let data : List U8 := packets.flatMap (·.data)
  IO.FS.writeBinFile out (ByteArray.mk (data.map (fun x => UInt8.ofNat x.toNat)).toArray)

/-- How many of the words of the (derandomized) blocks of a file belong to the code of CCSDS 131.0-B. -/
def words (path : String) (len : Nat) (interleave : Nat) : IO Unit := do
  let bytes ← IO.FS.readBinFile path
  let content : List U8 := bytes.toList.map fun x => x.toBitVec
  let (items, _) := run Sync.next 1000000 (Sync.iter (Reader.ofBytes content) Sync.ASM len) []
  let mut good := 0
  let mut all := 0
  for it in items do
    if let .ok b := it then
      if let .ret ws := RS.deinterleave (Pn.derandomize b.data) (BitVec.ofNat 8 interleave) then
        for w in ws do
          all := all + 1
          if decide (Spec.ccsdsCode w) then good := good + 1
  IO.println s!"words {all} in the code {good}"

end Ccsds.Conformance

def main (args : List String) : IO Unit :=
  match args with
  | ["cadus", path, out, len, interleave] => Ccsds.Conformance.cadus path out len.toNat! interleave.toNat!
  | ["unit"] => for (name, ok) in Ccsds.UnitTests.all do IO.println s!"{if ok then "ok  " else "FAIL"} {name}"
  | ["words", path, len, interleave] => Ccsds.Conformance.words path len.toNat! interleave.toNat!
  | _ => IO.eprintln "usage: unit | cadus <file> <packets out> <block length> <interleave>"
