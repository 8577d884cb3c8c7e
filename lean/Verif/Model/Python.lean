import Verif.Model.Commands
/-!
# `ccsds-py/src/lib.rs`: the Python iterators, with iterators composed lazily

Elsewhere in the model an iterator over packets is the list of what it yields. Here the composition `collect_groups(decode_packets(file).filter_map(Result::ok))`
is modelled call by call: `collect_groups` calls `next` of the packet iterator only when it needs a packet. `filter_map` may loop for ever, so `next` is a relation.
-/
namespace Ccsds.Py

/-- `Iterator::filter_map(Result::ok)` (lib.rs:39, 72, 73): `next`. -/
inductive FilterOk {S α ε : Type} (next : S → Outcome (Option (Except ε α) × S)) : S → Outcome (Option α × S) → Prop where
  | item {s s' : S} {a : α} : next s = .ret (some (.ok a), s') → FilterOk next s (.ret (some a, s'))
  | skip {s s' : S} {e : ε} {o : Outcome (Option α × S)} : next s = .ret (some (.error e), s') → FilterOk next s' o → FilterOk next s o
  | done {s s' : S} : next s = .ret (none, s') → FilterOk next s (.ret (none, s'))
  | panicked {s : S} : next s = .panic → FilterOk next s .panic

/-- A `for` loop over an iterator whose `next` is a relation; as `Collects`. -/
inductive Loops {S α : Type} (next : S → Outcome (Option α × S) → Prop) : S → List α → Option S → Prop where
  | done {s s' : S} : next s (.ret (none, s')) → Loops next s [] (some s')
  | panicked {s : S} : next s .panic → Loops next s [] none
  | step {s s' : S} {a : α} {as : List α} {e : Option S} : next s (.ret (some a, s')) → Loops next s' as e → Loops next s (a :: as) e

/-- spacepacket/mod.rs:482-489 `PacketGroupIter` over an iterator with state `S`. -/
structure Groups (S : Type) where
  packets : S
  cached : Option Packet
  done : Bool

variable {S : Type}

/-- spacepacket/mod.rs:523-532 the cached packet, else the next of the iterator -/
def takes (pull : S → Outcome (Option Packet × S) → Prop) (s : S) (c : Option Packet) (o : Outcome (Option Packet × S)) : Prop :=
  match c with
  | some p => o = .ret (some p, s)
  | none => pull s o

/-- spacepacket/mod.rs:520-576 the loop of `PacketGroupIter::next` with what follows it -/
inductive Loop (pull : S → Outcome (Option Packet × S) → Prop) : S → Option Packet → Option PacketGroup → Outcome (Option PacketGroup × Groups S) → Prop where
  | standalone {s s' : S} {c : Option Packet} {p : Packet} : takes pull s c (.ret (some p, s')) → p.isStandalone = true →
      Loop pull s c none (.ret (some ⟨p.header.apid, [p]⟩, ⟨s', none, false⟩))
  | start {s s' : S} {c : Option Packet} {p : Packet} {o : Outcome (Option PacketGroup × Groups S)} : takes pull s c (.ret (some p, s')) →
      p.isStandalone = false → Loop pull s' none (some ⟨p.header.apid, [p]⟩) o → Loop pull s c none o
  | other {s s' : S} {c : Option Packet} {p : Packet} {g : PacketGroup} : takes pull s c (.ret (some p, s')) →
      some p.header.apid ≠ g.packets.head?.map (·.header.apid) → Loop pull s c (some g) (.ret (some g, ⟨s', some p, false⟩))
  | push {s s' : S} {c : Option Packet} {p : Packet} {g : PacketGroup} {o : Outcome (Option PacketGroup × Groups S)} : takes pull s c (.ret (some p, s')) →
      some p.header.apid = g.packets.head?.map (·.header.apid) → Loop pull s' none (some { g with packets := g.packets ++ [p] }) o →
      Loop pull s c (some g) o
  | endGroup {s s' : S} {c : Option Packet} {g : PacketGroup} : takes pull s c (.ret (none, s')) → Loop pull s c (some g) (.ret (some g, ⟨s', none, false⟩))
  | ended {s s' : S} {c : Option Packet} : takes pull s c (.ret (none, s')) → Loop pull s c none (.ret (none, ⟨s', none, true⟩))
  | panicked {s : S} {c : Option Packet} {g : Option PacketGroup} : takes pull s c .panic → Loop pull s c g .panic

/-- spacepacket/mod.rs:514-577 `PacketGroupIter::next`; with `filter_map(Result::ok)` (lib.rs:73), as all items are `Ok`. -/
inductive GroupsNext (pull : S → Outcome (Option Packet × S) → Prop) : Groups S → Outcome (Option PacketGroup × Groups S) → Prop where
  | isDone {s : Groups S} : s.done = true → GroupsNext pull s (.ret (none, s))
  | run {s : Groups S} {o : Outcome (Option PacketGroup × Groups S)} : s.done = false → Loop pull s.packets s.cached none o → GroupsNext pull s o

/-- ccsds-py/src/lib.rs:14-42 `ccsds.decode_packets(path)` iterated by Python: the packets, and whether iteration then stops (`StopIteration`) or a panic is
raised. `r` is the opened file. -/
def DecodePackets (r : Reader) (ps : List Packet) (stops : Bool) : Prop :=
  ∃ e, Loops (FilterOk PacketDecoder.next) (PacketDecoder.new r) ps e ∧ stops = e.isSome

/-- ccsds-py/src/lib.rs:44-75 `ccsds.decode_packet_groups(path)` iterated by Python. -/
def DecodePacketGroups (r : Reader) (gs : List PacketGroup) (stops : Bool) : Prop :=
  ∃ e, Loops (GroupsNext (FilterOk PacketDecoder.next)) ⟨PacketDecoder.new r, none, false⟩ gs e ∧ stops = e.isSome

/-- spacepacket/mod.rs:85-90 `ccsds.Packet(buf)`; `none` is the `ValueError` of error.rs:28-33 -/
def packetNew (buf : List U8) : Option Packet :=
  match Packet.decode buf with
  | .ok p => some p
  | .error _ => none

/-- spacepacket/mod.rs:102-104 `Packet.user_data`; slicing panics if `data` is shorter than the header -/
def userData (p : Packet) : Outcome (List U8) := if p.data.length < PrimaryHeader.LEN then .panic else .ret (p.data.drop PrimaryHeader.LEN)

end Ccsds.Py
