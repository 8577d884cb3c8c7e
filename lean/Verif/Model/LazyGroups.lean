import Verif.Model.Filter
/-!
# `collect_groups` over an iterator that reads

`Model.Filter` and `Model.Merge` first list the packets up to the end of the input and then group that list. The code interleaves the two (spacepacket/mod.rs:507-577 pulls from
`decode_packets(..).filter_map(Result::ok)`), and pulls again after the packet iterator has returned `None` once, when a group was still open. This is that composition, call by call.
`Props.EndOfInput` shows that both agree unless the input goes on after its end.
-/
namespace Ccsds.Lazy

/-- filter.rs:17, merge.rs:100 `decode_packets(input).filter_map(Result::ok)`: a call of `next`, which skips errors. It need not return. -/
inductive Pull : PacketDecoder → Outcome (Option Packet × PacketDecoder) → Prop where
  | ended {s s' : PacketDecoder} : PacketDecoder.next s = .ret (none, s') → Pull s (.ret (none, s'))
  | panicked {s : PacketDecoder} : PacketDecoder.next s = .panic → Pull s .panic
  | packet {s s' : PacketDecoder} {p : Packet} : PacketDecoder.next s = .ret (some (.ok p), s') → Pull s (.ret (some p, s'))
  | skip {s s' : PacketDecoder} {e : Error} {o : Outcome (Option Packet × PacketDecoder)} : PacketDecoder.next s = .ret (some (.error e), s') → Pull s' o → Pull s o

/-- mod.rs:482-489 `PacketGroupIter` over that iterator -/
structure Iter where
  packets : PacketDecoder
  cached : Option Packet
  done : Bool
  deriving DecidableEq, Repr

/-- How the loop ends: by `return Some(Ok(group))`, by `break` with what `group` then holds, or by a panic. -/
inductive LoopEnd where
  | returned (g : PacketGroup) (s : Iter)
  | broke (g : Option PacketGroup) (s : Iter)
  | panicked
  deriving DecidableEq, Repr

/-- mod.rs:521-561 the loop, from its head with the packets iterator, `cached` and `group` -/
inductive Loop : PacketDecoder → Option Packet → Option PacketGroup → LoopEnd → Prop where
  /-- 529-532: nothing cached, and the iterator has ended -/
  | broke {s s' : PacketDecoder} {g : Option PacketGroup} : Pull s (.ret (none, s')) → Loop s none g (.broke g ⟨s', none, false⟩)
  | panicked {s : PacketDecoder} {g : Option PacketGroup} : Pull s .panic → Loop s none g .panicked
  /-- 525-527: a packet of the iterator is treated as one from the cache -/
  | pulled {s s' : PacketDecoder} {p : Packet} {g : Option PacketGroup} {e : LoopEnd} : Pull s (.ret (some p, s')) → Loop s' (some p) g e → Loop s none g e
  /-- 539-544 -/
  | standalone {s : PacketDecoder} {p : Packet} : p.isStandalone = true → Loop s (some p) none (.returned ⟨p.header.apid, [p]⟩ ⟨s, none, false⟩)
  /-- 546-549 -/
  | first {s : PacketDecoder} {p : Packet} {e : LoopEnd} : p.isStandalone = false → Loop s none (some ⟨p.header.apid, [p]⟩) e → Loop s (some p) none e
  /-- 554-557 -/
  | other {s : PacketDecoder} {p : Packet} {g : PacketGroup} : some p.header.apid ≠ g.packets.head?.map (·.header.apid) →
      Loop s (some p) (some g) (.returned g ⟨s, some p, false⟩)
  /-- 559-560 -/
  | push {s : PacketDecoder} {p : Packet} {g : PacketGroup} {e : LoopEnd} : some p.header.apid = g.packets.head?.map (·.header.apid) →
      Loop s none (some { g with packets := g.packets ++ [p] }) e → Loop s (some p) (some g) e

/-- mod.rs:514-577 `PacketGroupIter::next`. When the loop breaks, the cache is empty (570-576). -/
inductive Next : Iter → Outcome (Option PacketGroup × Iter) → Prop where
  | finished {s : Iter} : s.done = true → Next s (.ret (none, s))
  | returned {s s' : Iter} {g : PacketGroup} : s.done = false → Loop s.packets s.cached none (.returned g s') → Next s (.ret (some g, s'))
  | last {s s' : Iter} {g : PacketGroup} : s.done = false → Loop s.packets s.cached none (.broke (some g) s') → Next s (.ret (some g, s'))
  | ended {s s' : Iter} : s.done = false → Loop s.packets s.cached none (.broke none s') → Next s (.ret (none, { s' with done := true }))
  | panicked {s : Iter} : s.done = false → Loop s.packets s.cached none .panicked → Next s .panic

/-- A loop over the groups: the groups it gets, and whether it then ends (rather than panics). -/
inductive Groups : Iter → List PacketGroup → Bool → Prop where
  | done {s s' : Iter} : Next s (.ret (none, s')) → Groups s [] true
  | panicked {s : Iter} : Next s .panic → Groups s [] false
  | step {s s' : Iter} {g : PacketGroup} {gs : List PacketGroup} {ends : Bool} : Next s (.ret (some g, s')) → Groups s' gs ends → Groups s (g :: gs) ends

/-- `collect_groups(decode_packets(r).filter_map(Result::ok))` -/
def start (r : Reader) : Iter := ⟨.new r, none, false⟩

/-- filter.rs:16-56 `packets_with_times(input)`, call by call (compare `Filter.PacketsWithTimes`). The closure (20-55) does not panic for packets that were read. -/
def PacketsWithTimes (b : Build) (r : Reader) (items : List Filter.Item) (ends : Bool) : Prop :=
  ∃ gs e, Groups (start r) gs e ∧ items = (Filter.timedAll b gs).1 ∧ ends = ((Filter.timedAll b gs).2 && e)

/-- merge.rs:100-159 the pointers of one file, call by call (compare `Merger.Pointers`) -/
def Pointers {Path : Type} [DecidableEq Path] (b : Build) (τ : Epoch → Int) (m : Merger Path) (path : Path) (f : MFile) (r : Option (List (Ptr Path))) : Prop :=
  ∃ gs e, Groups (start f.reader) gs e ∧
    match e, m.pointersLoop b τ path gs [] with
    | true, .ret ps => r = some ps
    | _, _ => r = none

end Ccsds.Lazy
