import Verif.Model.SpacePacket
/-!
# Specification: neighbouring groups that are read as one

Nothing in a packet file says where a group ends.  Groups written one after the other are read back as they were only if the APID changes between them, or if they are single unsegmented
packets.  `fuse` says what is read back otherwise.
-/
namespace Ccsds.Spec

/-- APID of a group (that of its first packet). -/
def groupApid (g : List Packet) : Option (BitVec 16) := g.head?.map (·.header.apid)

/-- The group begins with an unsegmented packet (sequence flags 3). -/
def startsUnsegmented (g : List Packet) : Bool := g.head?.any (fun p => p.header.sequenceFlags.toNat == 3)

/-- The group `g` in front of others: it takes in all groups that follow directly and have its APID, unless it begins with an unsegmented packet. -/
def absorb (g : List Packet) (gs : List (List Packet)) : List (List Packet) :=
  if startsUnsegmented g then g :: gs
  else (g ++ (gs.takeWhile fun h => groupApid h == groupApid g).flatten) :: gs.dropWhile fun h => groupApid h == groupApid g

/-- Groups as they are read back when written one after the other. -/
def fuse : List (List Packet) → List (List Packet)
  | [] => []
  | g :: gs => absorb g (fuse gs)

end Ccsds.Spec
