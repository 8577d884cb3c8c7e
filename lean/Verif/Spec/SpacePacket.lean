import Verif.Spec.Bits
/-!
# Specification: CCSDS 133.0-B space packets

Written from the standard, without reference to the model's functions.
-/
namespace Ccsds.Spec

/-- Width in bits of the fields of the packet primary header, in order of transmission:
version, type, secondary header flag, APID, sequence flags, sequence count, data length minus one. -/
def headerWidths : List Nat := [3, 1, 1, 11, 2, 14, 16]

/-- Fields written one after the other, each most significant bit first. -/
def writeFields : List Nat → List Nat → List Bool
  | w :: ws, v :: vs => natBits w v ++ writeFields ws vs
  | _, _ => []

/-- Each value fits in its field. -/
def fits : List Nat → List Nat → Prop
  | w :: ws, v :: vs => v < 2 ^ w ∧ fits ws vs
  | [], [] => True
  | _, _ => False

/-- Number of bytes of the packet that starts at the front of `bs`: 6 header bytes plus the value of the
16-bit big-endian field at bit 32, plus one. -/
def packetLen (bs : List (BitVec 8)) : Nat := 6 + field bs 32 16 + 1

end Ccsds.Spec
