import Verif.Spec.SpacePacket
/-!
# Specification: transfer frame headers

Version-1 (TM, CCSDS 132.0-B) and version-2 (AOS, CCSDS 732.0-B) transfer frame primary headers, from the standards, as
consecutive bit fields.  Values: transfer frame version number, spacecraft id, virtual channel id, (fields the library does
not report), frame counter.
-/
namespace Ccsds.Spec

/-- TM: version 2 bits, SCID 10, VCID 3, OCF flag 1, then master and virtual channel frame counts (8 + 8 bits, reported by
the library as one 16-bit counter), data field status 16. -/
def tmWidths : List Nat := [2, 10, 3, 1, 16, 16]

/-- AOS: version 2 bits, SCID 8, VCID 6, virtual channel frame count 24, signalling field 8. -/
def aosWidths : List Nat := [2, 8, 6, 24, 8]

end Ccsds.Spec
