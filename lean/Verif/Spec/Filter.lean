import Verif.Spec.Merge
import Verif.Spec.Time
import Verif.Spec.Bits
/-!
# Specification of packet selection (`ccsds filter`)
-/
namespace Ccsds.Spec

/-- The CDS time right after the primary header: 2 bytes of days since 1958, 4 bytes of milliseconds, 2 bytes of microseconds. -/
def cdsTime (p : Packet) : Option Epoch :=
  if p.data.length < 6 + 8 then none
  else some ⟨.utc, cdsInstant (field (p.data.drop 6) 0 16) (field (p.data.drop 6) 16 32) (field (p.data.drop 6) 48 16)⟩

/-- The APID passes: it is included (an empty list includes all) and not excluded. -/
def ApidPasses (incl excl : List U16) (a : U16) : Prop := (incl = [] ∨ a ∈ incl) ∧ a ∉ excl
instance (incl excl : List U16) (a : U16) : Decidable (ApidPasses incl excl a) := by unfold ApidPasses; infer_instance

/-- The time passes: it is not before `after` and it is before `before`, as far as these are given. -/
def TimePasses (τ : Epoch → Int) (before after : Option Epoch) (t : Epoch) : Prop :=
  (∀ a ∈ after, τ a ≤ τ t) ∧ (∀ b ∈ before, τ t < τ b)
instance (τ : Epoch → Int) (before after : Option Epoch) (t : Epoch) : Decidable (TimePasses τ before after t) := by
  unfold TimePasses; infer_instance

/-- The group is selected: it begins with a packet flagged FIRST or UNSEGMENTED that carries a time, and APID and time pass. -/
def groupPasses (τ : Epoch → Int) (incl excl : List U16) (before after : Option Epoch) (g : PacketGroup) : Bool :=
  match g.packets with
  | [] => false
  | first :: _ =>
    (first.header.sequenceFlags.toNat == 1 || first.header.sequenceFlags.toNat == 3) &&
      match cdsTime first with
      | none => false
      | some t => decide (TimePasses τ before after t) && decide (ApidPasses incl excl first.header.apid)

/-- The bytes of a group. -/
def groupBytes (g : PacketGroup) : List U8 := g.packets.flatMap Packet.data

/-- `decode_packets` on the reader yields the packets `ps`, all `Ok`, and ends. -/
def Decodes (r : Reader) (ps : List Packet) : Prop := ∃ s, Collects PacketDecoder.next (PacketDecoder.new r) (ps.map .ok) (some s)

/-- `collect_groups` of these packets. -/
def GroupsOf (ps : List Packet) (gs : List PacketGroup) : Prop :=
  ∃ s, Collects PacketGroupIter.next (PacketGroupIter.new ps) (gs.map .ok) (some s)

end Ccsds.Spec
