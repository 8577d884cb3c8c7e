import Verif.Model.Merge
/-!
# Specification of merging

Stated with the public operations `decode_packets`, `collect_groups` and `TimecodeDecoder::decode` on one file.
-/
namespace Ccsds.Spec

/-- `gs` is what `collect_groups(decode_packets(file))` yields. -/
def FileGroups (f : MFile) (gs : List PacketGroup) : Prop :=
  ∃ ps s s', Collects PacketDecoder.next (PacketDecoder.new f.reader) (ps.map .ok) (some s) ∧
    Collects PacketGroupIter.next (PacketGroupIter.new ps) (gs.map .ok) (some s')

/-- The group `g` is to be merged, with time `t`: its first packet is flagged FIRST or UNSEGMENTED and has the decodable time `t`, not before
`lo`, before `hi`, and the APID is selected (by an empty selection all are). -/
def Eligible (b : Build) (τ : Epoch → Int) (d : TimecodeDecoder) (lo hi : Epoch) (sel : List U16) (g : PacketGroup) (t : Epoch) : Prop :=
  ∃ first rest, g.packets = first :: rest ∧ (first.header.sequenceFlags.toNat = 1 ∨ first.header.sequenceFlags.toNat = 3) ∧
    d.decode b first = .ret (.ok t) ∧ τ lo ≤ τ t ∧ τ t < τ hi ∧ (sel = [] ∨ first.header.apid ∈ sel)

/-- A group of a file, with its time. -/
structure Entry (Path : Type) where
  path : Path
  group : PacketGroup
  time : Epoch

/-- APID and sequence id of the first packet, and the time: what identifies a group. -/
def Entry.key {Path : Type} (τ : Epoch → Int) (e : Entry Path) : Option (U16 × U16) × Int :=
  (e.group.packets.head?.map fun p => (p.header.apid, p.header.sequenceId), τ e.time)

/-- The APID of the first packet. -/
def Entry.apid {Path : Type} (e : Entry Path) : U16 := match e.group.packets with | [] => 0 | p :: _ => p.header.apid

/-- Bytes of a group. -/
def Entry.bytes {Path : Type} (e : Entry Path) : List U8 := e.group.packets.flatMap Packet.data

/-- `e` names an eligible group of one of the input files. -/
def IsInput {Path : Type} (b : Build) (τ : Epoch → Int) (d : TimecodeDecoder) (lo hi : Epoch) (sel : List U16) (paths : List Path)
    (files : Path → Option MFile) (e : Entry Path) : Prop :=
  e.path ∈ paths ∧ ∃ f gs, files e.path = some f ∧ FileGroups f gs ∧ e.group ∈ gs ∧ Eligible b τ d lo hi sel e.group e.time

end Ccsds.Spec
