import Verif.Model.SpacePacket
import Verif.Model.HMap
/-!
# `ccsds-lib/src/spacepacket/summary.rs`
-/
namespace Ccsds

/-- summary.rs:8-14 `ApidSummary` (`usize` fields are `Nat`). -/
structure ApidSummary where
  count : Nat
  bytes : Nat
  missing : Nat
  deriving DecidableEq, Repr

/-- summary.rs:32-41 `Summary`. -/
structure Summary where
  count : Nat
  bytes : Nat
  missing : Nat
  apids : HMap U16 ApidSummary
  seenHeaders : HMap U16 PrimaryHeader
  deriving DecidableEq, Repr

namespace Summary

/-- summary.rs:32 `#[derive(Default)]`. -/
def default : Summary := ⟨0, 0, 0, [], []⟩

/-- summary.rs:44-60 `Summary::add`. The `entry(..).or_default()` reference is written back with `insert` at the end. -/
def add (b : Build) (s : Summary) (p : Packet) : Outcome Summary :=
  let a := (s.apids.get? p.header.apid).getD ⟨0, 0, 0⟩
  let a := { a with count := a.count + 1, bytes := a.bytes + p.data.length }
  let s := { s with count := s.count + 1, bytes := s.bytes + p.data.length }
  match s.seenHeaders.get? p.header.apid with
  | some lastHdr => do
    let m ← missingPackets b p.header.sequenceId lastHdr.sequenceId
    pure { s with
      missing := s.missing + m.toNat
      apids := s.apids.insert p.header.apid { a with missing := a.missing + m.toNat }
      seenHeaders := s.seenHeaders.insert p.header.apid p.header }
  | none =>
    pure { s with
      apids := s.apids.insert p.header.apid a
      seenHeaders := s.seenHeaders.insert p.header.apid p.header }

/-- Adding packets one after the other, as in the example of summary.rs:20-31. -/
def addAll (b : Build) : Summary → List Packet → Outcome Summary
  | s, [] => pure s
  | s, p :: ps => do
    let s ← add b s p
    addAll b s ps

end Summary
end Ccsds
