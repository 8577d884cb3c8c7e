import Verif.Props.Frame
import Verif.Props.Packets
import Verif.Props.PacketSemantics
import Verif.Props.Loss
import Verif.Props.Idle
import Verif.Props.Sizes
/-!
# Concrete cases: frames and the packets in them

Each theorem of `Props/Frame`, `Props/Packets`, `Props/PacketSemantics`, `Props/Loss`, `Props/Idle` and `Props/Sizes` that has hypotheses, applied to concrete data that meets them.
-/
namespace Ccsds.Cases.Frames
open Spec

/-! ## C33 to C35 -/

example (rest : List U8) : VCDUHeader.decode ([0x55#8, 0x61#8, 0x01#8, 0xe2#8, 0x40#8, 0x05#8] ++ rest) = some ⟨1, 85, 33, 123456⟩ :=
  C33_aos_roundtrip ⟨1, 85, 33, 123456⟩ 5 (by decide +kernel) rfl _ rest (by decide +kernel)

example (rest : List U8) : VCDUHeader.decode ([0x2b#8, 0xcb#8, 0x12#8, 0x34#8, 0x07#8, 0xff#8] ++ rest) = some ⟨0, 700, 5, 0x1234⟩ :=
  C33_tm_roundtrip ⟨0, 700, 5, 0x1234⟩ 1 0x07ff (by decide +kernel) rfl _ rest (by decide +kernel)

example : VCDUHeader.decode [0x55#8, 0x61#8, 0x01#8, 0xe2#8, 0x40#8, 0x05#8, 1#8] = VCDUHeader.decode [0x55#8, 0x61#8, 0x01#8, 0xe2#8, 0x40#8, 0x05#8] :=
  C33_prefix _ _ (by decide) (by decide)

/-- Ten frames missing across the rollover: one too few is reported. -/
example (b : Build) : ∃ m, missingFrames b 5 16777210 = .ret m ∧ m.toNat + 1 = 10 := by
  obtain ⟨m, h1, h2⟩ := (C34_behaviour b 5 16777210 (by decide) (by decide)).2.2.1 (by decide) (by decide)
  exact ⟨m, h1, h2.trans (by decide)⟩

example (b : Build) : ∃ m, missingFrames b 1000 990 = .ret m ∧ m.toNat = 9 := by
  obtain ⟨m, h1, h2⟩ := C34_partial b 1000 990 (by decide) (by decide)
  exact ⟨m, h1, h2.trans (by decide)⟩

def blk (d : List U8) : Block := ⟨0, ⟨0, 0⟩, d⟩
/-- Channel 33, counters 7 and 10; channel 34, counter 9. -/
def c7 : Block := blk [0x55, 0x61, 0, 0, 7, 0]
def c9 : Block := blk [0x55, 0x62, 0, 0, 9, 0]
def c10 : Block := blk [0x55, 0x61, 0, 0, 10, 0]
def f10 : Frame := ⟨⟨1, 85, 33, 10⟩, 2, none, [0x55, 0x61, 0, 0, 10, 0]⟩

theorem f10_frame (b : Build) (before : List Block) (h : lastOfChannel before 33 = some ⟨1, 85, 33, 7⟩) : FrameOf b before c10 f10 := by
  refine ⟨by decide +kernel, rfl, rfl, ?_⟩
  show match lastOfChannel before 33 with | none => _ | some p => _
  rw [h]
  obtain ⟨m, h1, h2⟩ := C34_partial b 10 7 (by decide) (by decide)
  show missingFrames b 10 7 = .ret 2
  rw [h1]
  exact congrArg Outcome.ret (BitVec.eq_of_toNat_eq (h2.trans (by decide)))

/-- What is said about the third frame does not depend on the other channel. -/
example (b : Build) (f f' : Frame) (h : FrameOf b [c7, c9] c10 f) (h' : FrameOf b [c9, c9, c7] c10 f') : f = f' :=
  C35_independent b [c7, c9] [c9, c9, c7] c10 f f' (by
    intro h e
    have : h = ⟨1, 85, 33, 10⟩ := Option.some.inj (e.symm.trans (by decide +kernel))
    subst this
    decide +kernel) h h'

example (b : Build) : FrameOf b [c7, c9] c10 f10 ∧ FrameOf b [c9, c9, c7] c10 f10 := ⟨f10_frame b _ (by decide +kernel), f10_frame b _ (by decide +kernel)⟩

example (b : Build) : f10.missing.toNat = gap (2 ^ 24) 10 7 :=
  C35_missing_exact b [c7, c9] c10 f10 (f10_frame b _ (by decide +kernel)) ⟨1, 85, 33, 7⟩ (by decide +kernel) (by decide) (by decide)

/-- The rollover of a counter, with overflow checks. -/
theorem roll_panics : Collects (FrameDecoder.next ⟨true⟩) (FrameDecoder.new [blk [0x55, 0x61, 0xff, 0xff, 0xff, 0], blk [0x55, 0x61, 0, 0, 0, 0]])
    [⟨⟨1, 85, 33, 0xffffff⟩, 0, none, [0x55, 0x61, 0xff, 0xff, 0xff, 0]⟩] none := .step rfl (.panicked rfl)

example : ∃ c h p, [blk [0x55, 0x61, 0xff, 0xff, 0xff, 0], blk [0x55, 0x61, 0, 0, 0, 0]][1]? = some c ∧ VCDUHeader.decode c.data = some h ∧
    lastOfChannel [blk [0x55, 0x61, 0xff, 0xff, 0xff, 0]] h.vcid = some p ∧ p.counter.toNat = 2 ^ 24 - 1 ∧ h.counter.toNat < 2 ^ 24 - 1 ∧ h.vcid ≠ 63 :=
  (C35_panic ⟨true⟩ _ _ roll_panics).2

/-! ## C46 to C51 -/

open SemEx

/-- The end of some packet and the start of packet A; the rest of A and packet B. -/
def first : Frame := frame 1#8 0 none (9#8 :: pktA.take 4)
def second : Frame := frame 7#8 0 none (pktA.drop 4 ++ pktB)
/-- No packet starts in it. -/
def noStart : Frame := IdleEx.fill 43#16 0xff#8
/-- Uncorrectable. -/
def damaged : Frame := frame 0#8 0 (some .uncorrectable) pktA
/-- One frame missing before it. -/
def afterLoss : Frame := frame 0#8 1 none pktB
/-- Six bytes that are no telemetry header. -/
def junk : Frame := frame 0#8 0 none (List.replicate 6 0xff#8)
def tooShort : Frame := ⟨⟨1#8, 157#16, 43#16, 0#32⟩, 0#32, none, List.replicate 7 0#8⟩

theorem noPacket_nil : NoPacket [] := by
  intro p r hp e
  have := congrArg List.length e
  have := hp.1
  simp at *
  omega

theorem decShort (f : Frame) (h : ¬ f.data.length < 6 + 0 + 0 + 2) : ¬ Short 0 0 f := h

instance (i t : Nat) (f : Frame) : Decidable (Short i t f) := by unfold Short; infer_instance
instance (f : Frame) : Decidable (Bad f) := by unfold Bad; infer_instance
instance (i t : Nat) (f : Frame) : Decidable (NoStart i t f) := by unfold NoStart; infer_instance

example : ∃ ps s, Collects FramedPackets.next (FramedPackets.new [noStart, damaged, first, second] 0 0) ps (some s) ∧ ps.map (·.data) = [pktA, pktB] ∧ ∀ p ∈ ps, Good p :=
  C46_reassembly 0 0 43#16 [noStart, damaged] first [second] [pktA, pktB] [] (by decide) (by decide +kernel) (by decide +kernel) (by decide) (by decide +kernel) (by decide) (by decide +kernel)
    (by decide +kernel) noPacket_nil (by decide)

/-- Two channels. -/
def mixed : List Frame := [first, IdleEx.data 7#16, second, IdleEx.data 7#16]

example : ∃ outs : List (List Packet), ByFrame 0 0 mixed outs ∧ (∃ s, Collects FramedPackets.next (FramedPackets.new mixed 0 0) outs.flatten (some s)) ∧
    ∀ v : U16, ∃ s, Collects FramedPackets.next (FramedPackets.new (mixed.filter (fun f => f.header.vcid == v)) 0 0)
      (((mixed.zip outs).filter (fun x => x.1.header.vcid == v)).map (·.2)).flatten (some s) :=
  C47_channels 0 0 mixed (by decide +kernel)

example : ∃ pa pb sa sb, Collects FramedPackets.next (FramedPackets.new [first] 0 0) pa (some sa) ∧ Collects FramedPackets.next (FramedPackets.new [first, second] 0 0) (pa ++ pb) (some sb) :=
  C47_causal 0 0 [first] [second] (by decide +kernel)

theorem frames_packets : ∃ ps s, Collects FramedPackets.next (FramedPackets.new SemEx.frames 0 0) ps (some s) ∧ ps.map (·.data) = [pktA, pktB, pktA] := by
  obtain ⟨ps, s, h1, _, h2⟩ := C74_channel 0 0 43#16 SemEx.frames (by decide) (by decide +kernel)
  exact ⟨ps, s, h1, ((h2 _).1 SemEx.decoded).symm⟩

/-- Every packet of a run with losses and damage is well formed and lies in consecutive undamaged frames. -/
example : ∃ ps s, Collects FramedPackets.next (FramedPackets.new SemEx.frames 0 0) ps (some s) ∧ ps.length = 3 ∧ ∀ p ∈ ps,
    (p.data.length = 6 + p.header.lenMinus1.toNat + 1 ∧ p.header.version = 0 ∧ p.header.typeFlag = 0) ∧
    ∃ (v : U16) (pre : List Frame) (g : Frame) (seg post : List Frame), SemEx.frames.filter (fun f => f.header.vcid == v) = pre ++ g :: seg ++ post ∧
      p.data <:+: ((g :: seg).map (fun g => payloadOf 0 0 g.data)).flatten ∧ (∀ x ∈ g :: seg, ¬ Bad x) ∧ (∀ x ∈ seg, x.missing = 0#32) := by
  obtain ⟨ps, s, h1, h2⟩ := frames_packets
  refine ⟨ps, s, h1, by have := congrArg List.length h2; simpa using this, fun p hp => ⟨?_, C48_no_gap 0 0 SemEx.frames ps (some s) h1 p hp⟩⟩
  obtain ⟨e1, _, e3, e4, _⟩ := C49_wellformed 0 0 SemEx.frames ps (some s) h1 p hp
  exact ⟨e1, e3, e4⟩

example : ∃ ps qs s1 s2 s3, Collects FramedPackets.next (FramedPackets.new [first] 0 0) ps (some s1) ∧ Collects FramedPackets.next (FramedPackets.new [second] 0 0) qs (some s2) ∧
    Collects FramedPackets.next (FramedPackets.new [first, damaged, second] 0 0) (ps ++ qs) (some s3) :=
  C50_bad 0 0 43#16 [first] damaged [second] (by decide) (by decide +kernel) (by decide)

example : ∃ ps qs s1 s2 s3, Collects FramedPackets.next (FramedPackets.new [first] 0 0) ps (some s1) ∧ Collects FramedPackets.next (FramedPackets.new [afterLoss, second] 0 0) qs (some s2) ∧
    Collects FramedPackets.next (FramedPackets.new [first, afterLoss, second] 0 0) (ps ++ qs) (some s3) :=
  C50_missing 0 0 43#16 [first] afterLoss [second] (by decide) (by decide +kernel) (by decide)

example : ∃ ps s1 s2, Collects FramedPackets.next (FramedPackets.new [first, second] 0 0) ps (some s1) ∧
    Collects FramedPackets.next (FramedPackets.new [noStart, damaged, first, second] 0 0) ps (some s2) :=
  C50_skip 0 0 43#16 [noStart, damaged] [first, second] (by decide) (by decide +kernel) (by decide +kernel)

/-- Packets A and B, six bytes that are no header, and packet A again. -/
example : ∃ ps more s1 s2, ps.map (·.data) = [pktA, pktB] ∧ (∀ p ∈ ps, Good p) ∧ Collects FramedPackets.next (FramedPackets.new [IdleEx.data 43#16] 0 0) more (some s1) ∧
    Collects FramedPackets.next (FramedPackets.new [noStart, first, second, junk, IdleEx.data 43#16] 0 0) (ps ++ more) (some s2) :=
  C50_invalid 0 0 43#16 [noStart] first [second] junk [IdleEx.data 43#16] [pktA, pktB] (List.replicate 6 0xff#8) (by decide) (by decide +kernel) (by decide +kernel) (by decide) (by decide +kernel)
    (by decide) (by decide +kernel) (by decide +kernel) (by decide +kernel) (by decide +kernel)

example : ∃ ps s, Collects FramedPackets.next (FramedPackets.new [first, second] 0 0) ps (some s) ∧ Collects FramedPackets.next (FramedPackets.new [first, second, tooShort, first] 0 0) ps none :=
  C51_before_panic 0 0 [first, second] tooShort [first] (by decide) (by decide)

/-! ## C74, C75, C76 -/

example : ∃ outs : List (List Packet), ByFrame 0 0 mixed outs ∧ Decoded 0 0 (mixed.filter (fun f => f.header.vcid == 7#16))
    ((((mixed.zip outs).filter (fun x => x.1.header.vcid == 7#16)).map (·.2)).flatten.map (·.data)) := by
  obtain ⟨outs, h1, _, _, h4⟩ := C74_frames 0 0 mixed (by decide +kernel)
  exact ⟨outs, h1, h4 7#16⟩

example : ∃ p s, FramedPackets.next (FramedPackets.new SemEx.frames 0 0) = .ret (some p, s) ∧ (∀ v t, s.cache.get? v = some t → t.cache.length < 65542) := by
  obtain ⟨ps, s, h1, h2⟩ := frames_packets
  cases h1 with
  | done => cases h2
  | step hn _ => exact ⟨_, _, hn, (C75_memory 0 0 40 SemEx.frames (by decide) _ (.next .start hn)).1⟩

theorem noPacket_two : NoPacket [0#8, 0#8] := by
  intro p r hp e
  have := congrArg List.length e
  have := hp.1
  simp at *
  omega

/-- Seven idle zero bytes come out as a packet. -/
example : ∃ ps s, Collects FramedPackets.next (FramedPackets.new [IdleEx.data 43#16, IdleEx.fill 43#16 0#8] 0 0) ps (some s) ∧ ps.map (·.data) = [pktA, List.replicate 7 0#8] :=
  C76_fill_is_data 0 0 43#16 (IdleEx.data 43#16) [] (IdleEx.fill 43#16 0#8) [pktA, List.replicate 7 0#8] [0#8, 0#8] (by decide +kernel) (by decide) (by decide +kernel) (by simp)
    ⟨by decide +kernel, by decide, rfl⟩ (by decide +kernel) (by decide +kernel) noPacket_two (by decide)

example : ∃ ps s s', Collects FramedPackets.next (FramedPackets.new [damaged, first, second] 0 0) ps (some s) ∧
    Collects FramedPackets.next (FramedPackets.new [damaged, noStart, noStart, first, second] 0 0) ps (some s') :=
  C76_fill_before_partial 0 0 43#16 [damaged] [noStart, noStart] [first, second] (by decide +kernel)
    (by intro g hg; simp at hg; subst hg; exact ⟨by decide +kernel, by decide, rfl⟩) (by intro x hx; cases hx; decide)

/-! ## C82 -/

example : ∃ outs : List (List Packet), ByFrame 0 0 LossEx.frames outs ∧
    (((LossEx.frames.zip outs).filter (fun x => x.1.header.vcid == 43#16)).map (·.2)).flatten.map (·.data) = survivors 0 0 LossEx.events 0 1 [pktA, pktB, pktA, pktB, pktA] := by
  obtain ⟨outs, h1, _, h3⟩ := C82_channels 0 0 LossEx.frames (by decide +kernel)
  refine ⟨outs, h1, h3 43#16 LossEx.events [9#8] _ LossEx.framing ?_⟩
  have : LossEx.frames.filter (fun f => f.header.vcid == 43#16) = LossEx.frames := by decide
  rw [this]
  exact LossEx.arrives

example : survivors 0 0 [.ok (LossEx.data 0 1 0), .ok (LossEx.data 0 4 1)] 0 1 [pktA] = [pktA] :=
  C82_no_loss 0 0 [.ok (LossEx.data 0 1 0), .ok (LossEx.data 0 4 1)] 0 1 [pktA] (by decide) (by decide +kernel)

/-- The loss of the third frame is nothing to the first packet. -/
example : Undisturbed 0 0 1 10 0 [.ok (LossEx.data 0 1 0), .ok (LossEx.data 0 4 1), .lost (LossEx.data 0 5 2)] ↔
    Undisturbed 0 0 1 10 0 [.ok (LossEx.data 0 1 0), .ok (LossEx.data 0 4 1), .ok (LossEx.data 0 5 2)] :=
  C82_local 0 0 [.ok (LossEx.data 0 1 0), .ok (LossEx.data 0 4 1)] [] (.lost (LossEx.data 0 5 2)) (.ok (LossEx.data 0 5 2)) 1 10 0 rfl (.inl (by decide +kernel))

end Ccsds.Cases.Frames
