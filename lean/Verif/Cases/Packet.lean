import Verif.Props.Header
import Verif.Props.PacketDecoder
import Verif.Props.Summary
import Verif.Props.Groups
import Verif.Props.Timecode
import Verif.Props.NumberRanges
import Verif.Props.Pn
/-!
# Concrete cases: packets, counters, groups, time codes

Each theorem of `Props/Header`, `Props/PacketDecoder`, `Props/Summary`, `Props/Groups`, `Props/Timecode`, `Props/NumberRanges` and `Props/Pn` that has hypotheses, applied to concrete data that
meets them.
-/
namespace Ccsds.Cases
open Spec

/-- A packet of APID 1369, first of a group, number 4711, two data bytes. -/
def pkt : List U8 := [0x0d#8, 0x59#8, 0x52#8, 0x67#8, 0x00#8, 0x01#8, 0xaa#8, 0xbb#8]
/-- An unsegmented packet of APID 5, number 7, one data byte. -/
def pkt5 : List U8 := [0x00#8, 0x05#8, 0xc0#8, 0x07#8, 0x00#8, 0x00#8, 0xab#8]
def hdr : PrimaryHeader := ⟨0, 0, true, 1369, 1, 4711, 1⟩
def hdr5 : PrimaryHeader := ⟨0, 0, false, 5, 3, 7, 0⟩

/-! ## C01, C02 -/

example : ∃ h, PrimaryHeader.decode pkt = .ok h ∧ h.apid.toNat = 1369 ∧ h.sequenceId.toNat = 4711 := by
  obtain ⟨h, e, _, _, _, h4, _, h6, _⟩ := C01_fields pkt (by decide)
  exact ⟨h, e, h4.trans (by decide +kernel), h6.trans (by decide +kernel)⟩

example : PrimaryHeader.decode (pkt.take 5) = .error (.notEnoughData 5 6) := C01_short (pkt.take 5) (by decide)

example : fits headerWidths hdr.nums ∧ writeFields headerWidths hdr.nums = bits (pkt.take 6) := C01_reserialize pkt hdr (by decide +kernel)

example (rest : List U8) : PrimaryHeader.decode (pkt.take 6 ++ rest) = .ok hdr :=
  C01_decode_serialized hdr (by decide +kernel) (pkt.take 6) rest (by decide +kernel)

example : PrimaryHeader.decode pkt = PrimaryHeader.decode (pkt.take 6 ++ [1#8]) := C01_prefix pkt (pkt.take 6 ++ [1#8]) (by decide) (by decide)

example (rest : List U8) : Packet.decode (pkt ++ rest) = .ok ⟨hdr, pkt, 0⟩ := C02_trailing pkt rest ⟨hdr, pkt, 0⟩ (by rfl)

/-! ## C03 to C07 -/

/-- Both packets in pieces, with an interrupted call. -/
def rd : Reader := ⟨[.data (pkt.take 3), .err .interrupted, .data (pkt.drop 3 ++ pkt5.take 1), .data (pkt5.drop 1)], .eof⟩

theorem good_data (c : List U8) (h : c ≠ []) : (Ev.data c).Good := .inl ⟨c, h, rfl⟩
theorem good_int : (Ev.err .interrupted).Good := .inr rfl

theorem rd_delivers : rd.Delivers (pkt ++ pkt5) := by
  refine ⟨fun e he => ?_, by decide, rfl⟩
  simp only [rd, List.mem_cons, List.not_mem_nil, or_false] at he
  rcases he with rfl | rfl | rfl | rfl
  · exact good_data _ (by decide)
  · exact good_int
  · exact good_data _ (by decide)
  · exact good_data _ (by decide)

/-- The same bytes in one piece. -/
def rdOne : Reader := ⟨[.data (pkt ++ pkt5)], .eof⟩

theorem rdOne_delivers : rdOne.Delivers (pkt ++ pkt5) := by
  refine ⟨fun e he => ?_, by decide, rfl⟩
  simp only [rdOne, List.mem_cons, List.not_mem_nil, or_false] at he
  subst he
  exact good_data _ (by decide)

example : ∃ p r', Packet.read rd = .ret (.ok p, r') ∧ Packet.decode (pkt ++ pkt5) = .ok p ∧ r'.Delivers pkt5 :=
  C03_partial (pkt ++ pkt5) rd rd_delivers (by decide +kernel) (by decide +kernel)

example : Packet.read rd ≠ .panic := by
  rw [ne_eq, C03_panics_iff (pkt ++ pkt5) rd rd_delivers]
  decide +kernel

example : ∃ ps rest e, Collects PacketDecoder.next (PacketDecoder.new rd) (ps.map .ok) e ∧ pkt ++ pkt5 = wire ps ++ rest ∧ (∀ p ∈ ps, p.WellFormed) ∧ OffsetsOk ps := by
  obtain ⟨ps, rest, e, h1, h2, h3, h4, _⟩ := C04_cut (pkt ++ pkt5) rd rd_delivers
  exact ⟨ps, rest, e, h1, h2, h3, h4⟩

/-- The two packets, followed by an incomplete one, in one piece. -/
example : ∃ qs s, Collects PacketDecoder.next (PacketDecoder.new ⟨[.data (pkt ++ pkt5 ++ [0x0d#8, 0x59#8])], .eof⟩) (qs.map .ok) (some s) ∧
    qs.map (fun p => (p.header, p.data)) = [(hdr, pkt), (hdr5, pkt5)] ∧ OffsetsOk qs := by
  refine C05_roundtrip [⟨hdr, pkt, 0⟩, ⟨hdr5, pkt5, 0⟩] [0x0d#8, 0x59#8] _ ?_ (by decide +kernel) (by decide +kernel) ⟨fun e he => ?_, by decide, rfl⟩
  · intro p hp
    simp only [List.mem_cons, List.not_mem_nil, or_false] at hp
    rcases hp with rfl | rfl <;> (unfold Packet.WellFormed; decide +kernel)
  · simp only [List.mem_cons, List.not_mem_nil, or_false] at he
    subst he
    exact good_data _ (by decide)

theorem rd_collects : Collects PacketDecoder.next (PacketDecoder.new rd) [.ok ⟨hdr, pkt, 0⟩, .ok ⟨hdr5, pkt5, 8⟩] (some ⟨⟨[], .eof⟩, 15⟩) :=
  .step rfl (.step rfl (.done rfl))

example : ∃ e', Collects PacketDecoder.next (PacketDecoder.new rdOne) [.ok ⟨hdr, pkt, 0⟩, .ok ⟨hdr5, pkt5, 8⟩] e' ∧ e' ≠ none := by
  obtain ⟨e', h1, h2⟩ := C06_chunking (pkt ++ pkt5) rd rdOne rd_delivers rdOne_delivers _ _ rd_collects
  exact ⟨e', h1, fun h => by cases h2.2 h⟩

theorem goods (c : List U8) (h : c ≠ []) : ∀ e ∈ [Ev.data c], e.Good := by
  intro e he
  rw [List.mem_singleton] at he
  subst he
  exact good_data c h

/-- A read error in the middle of a header; the iterator goes on behind it. -/
example : PacketDecoder.next ⟨⟨[Ev.data (pkt.take 3)] ++ .err (.other 5) :: [.data pkt5], .eof⟩, 0⟩ = .ret (some (.error (.io (.other 5))), ⟨⟨[.data pkt5], .eof⟩, 0⟩) :=
  C07_error [.data (pkt.take 3)] [.data pkt5] .eof (.other 5) 0 (goods _ (by decide)) (by unfold Partway; decide +kernel) (by decide)

example : PacketDecoder.next ⟨⟨[Ev.data (pkt.take 7)], .eof⟩, 0⟩ = .ret (none, ⟨⟨[], .eof⟩, 0⟩) :=
  (C07_eof [.data (pkt.take 7)] 0 (goods _ (by decide)) (by unfold Partway; decide +kernel)).1

example : ∃ h pre', PrimaryHeader.decode (pkt ++ pkt5) = .ok h ∧ (∀ e ∈ pre', e.Good) ∧ evBytes pre' = pkt5 ∧
    PacketDecoder.next ⟨⟨[Ev.data (pkt ++ pkt5)] ++ [.err (.other 1)], .eof⟩, 3⟩ = .ret (some (.ok ⟨h, pkt, 3⟩), ⟨⟨pre' ++ [.err (.other 1)], .eof⟩, 11⟩) :=
  C07_packet [.data (pkt ++ pkt5)] [.err (.other 1)] .eof 3 (goods _ (by decide)) (by decide +kernel) (by decide +kernel)

/-- A header that announces 65537 bytes. -/
example : PacketDecoder.next ⟨⟨[Ev.data [0x0d#8, 0x59#8, 0x52#8, 0x67#8, 0xff#8, 0xfa#8]] ++ [], .eof⟩, 0⟩ = .panic :=
  C07_panic [.data [0x0d#8, 0x59#8, 0x52#8, 0x67#8, 0xff#8, 0xfa#8]] [] .eof 0 (goods _ (by decide)) (by decide) (by decide +kernel)

example : ¬ ∃ items s, Collects PacketDecoder.next (PacketDecoder.new ⟨[.data pkt, .err (.other 5), .data pkt5], .fail 7⟩) items (some s) :=
  C07_never_ends _ ⟨⟨7, rfl⟩, by simp [pkt, pkt5]⟩

/-! ## C08 to C10 -/

example (b : Build) : ∃ m, missingPackets b 5 16383 = .ret m ∧ m.toNat = 5 := C08_gap b 5 16383 (by decide) (by decide)

example (b : Build) : ∃ m, missingPackets b 0 16383 = .ret m ∧ m.toNat ≤ 16383 ∧ (m.toNat = 0 ↔ 0 = (16383 + 1) % 16384) := C08_zero_iff b 0 16383 (by decide) (by decide)

/-- APID 5 with the counters 16383 and 1, APID 9 in between. -/
def ps3 : List Packet := [⟨⟨0, 0, false, 5, 3, 16383, 0⟩, [0, 5, 0xff, 0xff, 0, 0, 0xab], 0⟩, ⟨⟨0, 0, false, 9, 3, 100, 0⟩, [0, 9, 0xc0, 100, 0, 0, 0xab], 7⟩,
  ⟨⟨0, 0, false, 5, 3, 1, 0⟩, [0, 5, 0xc0, 1, 0, 0, 0xab], 14⟩]

theorem ps3_valid : ValidIds ps3 := by
  intro p hp
  simp only [ps3, List.mem_cons, List.not_mem_nil, or_false] at hp
  rcases hp with rfl | rfl | rfl <;> decide

example (b : Build) : ∃ s, Summary.addAll b Summary.default ps3 = .ret s ∧ s.count = 3 ∧ s.bytes = sumBytes ps3 := by
  obtain ⟨s, h1, h2, h3, _⟩ := C09_totals b ps3 ps3_valid
  exact ⟨s, h1, h2, h3⟩

example (b : Build) : ∃ s, Summary.addAll b Summary.default ps3 = .ret s ∧ ∀ e, s.apids.get? 5 = some e → e.missing = 1 := by
  obtain ⟨s, h1, h2⟩ := C10_missing b ps3 ps3_valid
  exact ⟨s, h1, fun e he => (h2 5 e he).trans (by decide +kernel)⟩

example : gapSum 16384 [16382, 16383, 1, 6] = 5 := (C10_lost [16382, 16383, 16385, 16390] ⟨by omega, by omega, by omega, by omega, by omega, by omega, trivial⟩).trans (by decide +kernel)

example (b : Build) : ∃ s, Summary.addAll b Summary.default ps3 = .ret s ∧ ∀ e, s.apids.get? 5 = some e → e.missing = lost [16383, 16385] :=
  C10_summary_counts_losses b ps3 ps3_valid 5 [16383, 16385] (by decide +kernel) ⟨by omega, by omega, trivial⟩

/-! ## C11 to C13 -/

def mk (a : U16) (fl : U8) (n : U16) : Packet := ⟨⟨0, 0, true, a, fl, n, 0⟩, [0, 0, 0, 0, 0, 0, 0], 0⟩

example : PacketGroupIter.next ⟨[], none, true⟩ = .ret (none, ⟨[], none, true⟩) := C11_fused (PacketGroupIter.new []) ⟨[], none, true⟩ rfl

def gs4 : List (List Packet) := [[mk 5 3 0], [mk 5 3 1], [mk 5 1 2, mk 5 0 3, mk 5 2 4], [mk 9 3 0]]

theorem gs4_sender : ∀ g ∈ gs4, SenderGroup g := by
  intro g hg
  simp only [gs4, List.mem_cons, List.not_mem_nil, or_false] at hg
  rcases hg with rfl | rfl | rfl | rfl
  · exact .single _ rfl
  · exact .single _ rfl
  · exact .segmented (mk 5 1 2) (mk 5 2 4) [mk 5 0 3] rfl rfl (by simp [mk, Packet.isCont]; rfl) rfl
  · exact .single _ rfl

theorem gs4_changes : ApidChanges gs4 := by simp [gs4, ApidChanges, mk]

example : Groups gs4.flatten gs4 := C12_partial gs4 gs4_sender gs4_changes
example : Groups gs4.flatten gs4 := (C12_recovered_iff gs4 gs4_sender).2 gs4_changes

/-- Two groups of the same APID in a row are not recovered. -/
example : ¬ Groups [mk 5 1 2, mk 5 2 3, mk 5 1 4, mk 5 2 5] [[mk 5 1 2, mk 5 2 3], [mk 5 1 4, mk 5 2 5]] := by
  refine fun h => absurd ((C12_recovered_iff [[mk 5 1 2, mk 5 2 3], [mk 5 1 4, mk 5 2 5]] ?_).1 h) (by simp [ApidChanges, mk])
  intro g hg
  simp only [List.mem_cons, List.not_mem_nil, or_false] at hg
  rcases hg with rfl | rfl
  · exact .segmented (mk 5 1 2) (mk 5 2 3) [] rfl rfl (by simp) rfl
  · exact .segmented (mk 5 1 4) (mk 5 2 5) [] rfl rfl (by simp) rfl

theorem group_valid : ValidIds [mk 5 1 16382, mk 5 0 16383, mk 5 2 0] := by
  intro p hp
  simp only [List.mem_cons, List.not_mem_nil, or_false] at hp
  rcases hp with rfl | rfl | rfl <;> decide

example (b : Build) : ∃ r, PacketGroup.haveMissing b ⟨5, [mk 5 1 16382, mk 5 0 16383, mk 5 2 0]⟩ = .ret r ∧ (r = true ↔ ¬ Consecutive [mk 5 1 16382, mk 5 0 16383, mk 5 2 0]) :=
  (C13_have_missing b ⟨5, [mk 5 1 16382, mk 5 0 16383, mk 5 2 0]⟩ group_valid).2 (by simp)

example (b : Build) : ∃ r, PacketGroup.complete b ⟨5, [mk 5 1 16382, mk 5 0 16383, mk 5 2 0]⟩ = .ret r := by
  obtain ⟨r, h, _⟩ := C13_complete b ⟨5, [mk 5 1 16382, mk 5 0 16383, mk 5 2 0]⟩ group_valid
  exact ⟨r, h⟩

/-! ## C14 to C18 -/

/-- 2024-11-01T00:00:01.684519Z, the example of the documentation. -/
def cds : List U8 := [0x5f, 0x5b, 0x00, 0x00, 0x06, 0x94, 0x02, 0x07]

example (b : Build) (rest : List U8) : Timecode.decode b (.cds 2 2) (cds ++ rest) = .ret (.ok ⟨.utc, cdsInstant 24411 1684 519⟩) :=
  C14_roundtrip b 2 2 (by unfold CdsMicros; decide) 24411 1684 519 cds rest (by decide +kernel) (by decide +kernel)

example (b : Build) : Timecode.decode b (.cds 2 2) cds = .ret (.ok ⟨.utc, cdsInstant 24411 1684 519⟩) :=
  ((C14_decode b 2 2 (by unfold CdsMicros; decide) cds).2 (by decide)).trans (by decide +kernel)

example (b : Build) (rest : List U8) : Timecode.decode b (.cds 2 2) (cds ++ rest) = Timecode.decode b (.cds 2 2) cds := C14_prefix b 2 2 (by unfold CdsMicros; decide) cds rest (by decide)

example (b : Build) : ∃ x y, Timecode.decode b (.cds 2 2) cds = .ret (.ok ⟨.utc, x⟩) ∧ Timecode.decode b (.cds 2 2) [0x5f, 0x5b, 0x00, 0x00, 0x06, 0x95, 0x00, 0x00] = .ret (.ok ⟨.utc, y⟩) ∧ x < y := by
  obtain ⟨x, y, h1, h2, h3, _⟩ := C15_order b 2 2 (by unfold CdsMicros; decide) cds [0x5f, 0x5b, 0x00, 0x00, 0x06, 0x95, 0x00, 0x00] (by unfold CdsInRange; decide +kernel)
    (by unfold CdsInRange; decide +kernel)
  exact ⟨x, y, h1, h2, h3.2 (by decide)⟩

example (b : Build) : Timecode.decode b (.cds 5 2) (List.replicate 12 0#8) = .panic := (C16_behaviour b 5 2 (List.replicate 12 0#8) (by decide)).1 (by decide)

example (b : Build) : ∃ n, n < 2 ^ 64 ∧ Timecode.decode b (.cuc 4 2 (some .nan)) [0x7d, 0xb5, 0xbf, 0x2f, 0x80, 0x1f] = .ret (.ok ⟨.tai, cucInstant (field [0x7d, 0xb5, 0xbf, 0x2f, 0x80, 0x1f] 0 32) n⟩) ∧ n = 0 := by
  obtain ⟨n, h1, h2, h3, _⟩ := C17_saturates b 4 2 (some .nan) [0x7d, 0xb5, 0xbf, 0x2f, 0x80, 0x1f] (by decide) (by decide)
  exact ⟨n, h1, h2, h3 rfl⟩

example (b : Build) : Timecode.decodeJpss b cds = .ret (.ok ⟨.utc, cdsInstant 24411 1684 519⟩) := (C18_jpss_partial b cds (by decide)).trans (by decide +kernel)

/-! ## C32 -/

example : (bits (Pn.derandomize [0x98, 0x18])).getD 9 false = ((bits [0x98, 0x18]).getD 9 false ^^ pnBit 9) := C32_bits [0x98, 0x18] 9 (by decide)

example : Timecode.fineNanos 0x801f (.fin false 475 5) = 498544800 := by
  refine fineNanos_spec 0x801f (by decide) (some (.fin false 475 5)) 498544800 ⟨by omega, ?_⟩
  show _ = _ * 2 ^ 5
  omega

/-! ## C55 -/

open Ranges in
example : ∃ parts : List (List Nat), parts.length = 2 ∧ (∀ p ∈ [['7'], ['0', '8', '0', '0', '-', '8', '0', '3']].zip parts, Denotes p.1 p.2) ∧ [7, 800, 801, 802, 803] = parts.flatten :=
  (C55_parse RangesEx.ascii RangesEx.ascii_class [['7'], ['0', '8', '0', '0', '-', '8', '0', '3']] [7, 800, 801, 802, 803]).1 (by decide +kernel)

open Ranges in
example : ∃ s ∈ [['7'], ['9', '-', '3']], ∀ vs, ¬ Denotes s vs := (C55_error RangesEx.ascii RangesEx.ascii_class [['7'], ['9', '-', '3']]).1 (by decide +kernel)

open Ranges in
/-- What `4-6` denotes is determined. -/
example (vs : List Nat) (h : Denotes ['4', '-', '6'] vs) : vs = [4, 5, 6] := by
  obtain ⟨parts, h1, h2, h3⟩ := (C55_parse RangesEx.ascii RangesEx.ascii_class [['4', '-', '6']] [4, 5, 6]).1 (by decide +kernel)
  match parts, h1 with
  | [p], _ =>
    have hp := h2 (['4', '-', '6'], p) (by simp)
    rw [C55_denotes_unique ['4', '-', '6'] vs p h hp]
    simpa using h3.symm

/-- `--include 70000` alone asks for nothing. -/
example (b : Build) (τ : Epoch → Int) (r : Reader) (res : Option Filter.FResult) :
    Ranges.FilterCommand b τ RangesEx.ascii r [['7', '0', '0', '0', '0']] [] none none res ↔ Ranges.FilterCommand b τ RangesEx.ascii r [] [] none none res :=
  C55_include_dropped b τ RangesEx.ascii r [['7', '0', '0', '0', '0']] [] none none [70000] (by decide +kernel) (by decide) res

end Ccsds.Cases
