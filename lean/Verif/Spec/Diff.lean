import Verif.Model.Diff
import Verif.Spec.Filter
/-!
# Specification of packet file comparison (`ccsds diff`)
-/
namespace Ccsds.Spec
open Diff

/-- What identifies a packet for `diff`: APID, sequence id and the CRC of everything after the primary header. -/
def packetKey (crc : List U8 → U32) (p : Packet) : Key := ⟨p.header.apid, p.header.sequenceId, crc (p.data.drop 6)⟩

/-- Number of packets of an APID. -/
def apidCount (ps : List Packet) (a : U16) : Nat := ps.countP fun p => p.header.apid == a

/-- `k` is one of the greatest keys: no key of the list is greater (by APID, then sequence id, then CRC). -/
def Greatest (k : Key) (l : List Key) : Prop :=
  ∀ x ∈ l, x.apid < k.apid ∨ x.apid = k.apid ∧ (x.seq < k.seq ∨ x.seq = k.seq ∧ x.crc ≤ k.crc)

end Ccsds.Spec
