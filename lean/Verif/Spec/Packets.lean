import Verif.Spec.SpacePacket
/-!
# Specification: packets inside a byte stream

Independent of the model.
-/
namespace Ccsds.Spec

/-- A complete telemetry packet: version 0, type 0, exactly as long as its length field says. -/
def IsPacket (bs : List (BitVec 8)) : Prop :=
  6 ≤ bs.length ∧ bs.length = packetLen bs ∧ field bs 0 3 = 0 ∧ field bs 3 1 = 0

/-- The bytes `bs` do not start with a complete telemetry packet. -/
def NoPacket (bs : List (BitVec 8)) : Prop := ∀ p r, IsPacket p → bs ≠ p ++ r

/-- `bs` begins with a packet header that is not a version-0 telemetry header. -/
def BadHeader (bs : List (BitVec 8)) : Prop := 6 ≤ bs.length ∧ ¬ (field bs 0 3 = 0 ∧ field bs 3 1 = 0)

/-- Positions in the stream at which the packets start, the first packet starting at `at`. -/
def starts (at_ : Nat) : List (List (BitVec 8)) → List Nat
  | [] => []
  | p :: ps => at_ :: starts (at_ + p.length) ps

/-- The value CCSDS prescribes for the first header pointer of a payload that carries the stream positions
`a, ..., a + len - 1`: the offset of the first packet start in it, or `0x7ff` if no packet starts in it. -/
def FirstHeaderPointer (ss : List Nat) (a len ptr : Nat) : Prop :=
  (∃ x ∈ ss, a ≤ x ∧ x < a + len ∧ ptr = x - a ∧ ∀ y ∈ ss, a ≤ y → x ≤ y) ∨
  (ptr = 0x7ff ∧ ∀ y ∈ ss, a ≤ y → a + len ≤ y)

end Ccsds.Spec

namespace Ccsds.Spec

/-- The MPDU payload of a frame: what is left after the 6-byte frame header, the insert zone, the 2-byte MPDU header, and
without the trailer. -/
def payloadOf (izone trailer : Nat) (frame : List (BitVec 8)) : List (BitVec 8) :=
  (frame.drop (6 + izone + 2)).take (frame.length - (6 + izone + 2) - trailer)

/-- The first header pointer of a frame: the last 11 bits of the MPDU header. -/
def pointerOf (izone : Nat) (frame : List (BitVec 8)) : Nat := field (frame.drop (6 + izone)) 5 11

end Ccsds.Spec
