import Verif.Model.Sync
import Verif.Model.Timecode
import Verif.Model.Summary
import Verif.Model.Packets
import Verif.Model.RsStage
import Verif.Model.Python
/-!
# The crate's own unit tests and documentation examples, run on the model

Evidence for the model's fidelity, not a proof of any property: every assertion of the `#[test]` functions and doc examples of
`ccsds-lib/src` and of `ccsds-py/tests/test.py` that does not need the real Reed-Solomon decoder, transcribed as a Boolean, with the
place it comes from. Tests about `hifitime`'s text form are transcribed as the number of nanoseconds since 1900 that text stands for.
The kernel evaluates those that reduce in it (`example … := by decide +kernel`); `Sync.scan` is defined by well-founded recursion, and the
tests that call it, and the larger Reed-Solomon one, are only run by the driver (`Verif.Conformance`, `conformance/check.py`). Where a test uses the private fields of a structure the model's
field of the same meaning is used.
-/
namespace Ccsds.UnitTests

/-- Both build profiles. -/
def builds : List Build := [⟨true⟩, ⟨false⟩]

def bytes10 : Bytes := Bytes.new (Reader.ofBytes [0, 1, 2, 3, 4, 5, 6, 7, 8, 9])

/-- framing/bytes.rs:81-117 `test` -/
def bytesTest : Bool :=
  let (r1, s1) := bytes10.next
  let (r2, s2) := s1.next
  let s3 := s2.push [1]
  let (r4, s4) := s3.next
  let (r5, buf, s5) := s4.fill 3
  r1 == .ok 0 && s1.offset == 1 && r2 == .ok 1 && s2.offset == 2 && s3.cache == [1] && s3.offset == 1 &&
  r4 == .ok 1 && s4.offset == 2 && s4.cache == [] && r5 == .ok true && s5.cache == [] && s5.offset == 5 && buf == [2, 3, 4]

example : bytesTest = true := by decide +kernel

def bytes6 : Bytes := Bytes.new (Reader.ofBytes [1, 2, 3, 4, 5, 6])

/-- framing/bytes.rs:119-128 `read_exact_with_no_cache` -/
def bytesNoCache : Bool :=
  let (r, buf, s) := bytes6.fill 3
  r == .ok true && buf == [1, 2, 3] && s.numRead == 3 && s.offset == 3

example : bytesNoCache = true := by decide +kernel

/-- framing/bytes.rs:131-157 `read_exact_cache_does_not_contain_enough_bytes_to_fill_buff` -/
def bytesShortCache : Bool :=
  let (_, buf, s) := bytes6.fill 3
  let s := s.push buf
  let (r', buf', s') := s.fill 4
  s.numRead == 3 && s.offset == 0 && r' == .ok true && buf' == [1, 2, 3, 4] && s'.numRead == 4 && s'.offset == 4

example : bytesShortCache = true := by decide +kernel

/-- framing/bytes.rs:160-177 `fill_returns_true_when_not_eof`, `fill_returns_false_when_eof` -/
def bytesFill : Bool :=
  ((Bytes.new (Reader.ofBytes [1, 2, 3, 4, 5])).fill 3).1 == .ok true && ((Bytes.new (Reader.ofBytes [])).fill 3).1 == .ok false

example : bytesFill = true := by decide +kernel

/-- framing/bytes.rs:180-197 `read_exact_cache_contains_enough_bytes_to_fill_buff` -/
def bytesEnoughCache : Bool :=
  let (_, buf, s) := bytes6.fill 3
  let s := s.push buf
  let (r', buf', s') := s.fill 3
  s.offset == 0 && r' == .ok true && buf' == [1, 2, 3] && s'.offset == 3

example : bytesEnoughCache = true := by decide +kernel

def shifted : List (List U8) :=
  [[13, 103, 254, 14, 128], [6, 179, 255, 7, 64], [3, 89, 255, 131, 160], [1, 172, 255, 193, 208], [0, 214, 127, 224, 232],
    [0, 107, 63, 240, 116], [0, 53, 159, 248, 58]]

/-- framing/synchronizer.rs:282-303 `left_shift_over_asm_bytes`. (In the crate the loop runs over the empty range `8..0`, so nothing is
compared there; the row for a shift by `k > 0` is the one listed for the complementary `8 - k`.) -/
def leftShiftTest : Bool :=
  Sync.leftShift 0 [0, 26, 207, 252, 29] == [0, 26, 207, 252, 29] &&
  (List.range 7).all fun i => Sync.leftShift (7 - i) [0, 26, 207, 252, 29] == shifted.getD i []

example : leftShiftTest = true := by decide +kernel

/-- framing/synchronizer.rs:306-325 `create_patterns_over_asm_bytes` -/
def patternsTest : Bool := Sync.patterns Sync.ASM == Sync.ASM :: shifted

example : patternsTest = true := by decide +kernel

def locOf (o : Outcome (Except Error (Option Loc) × Sync.State)) : Option Loc :=
  match o with
  | .ret (.ok l, _) => l
  | _ => none

/-- framing/synchronizer.rs:331-338 `ccsds_asm_with_no_bitshift_succeeds` -/
def scanTest : Bool := locOf (Sync.scan (Sync.new (Reader.ofBytes Sync.ASM) 0)) == some ⟨5, 0⟩

/-- framing/synchronizer.rs:341-372 `ccsds_asm_shifted`, `ccsds_asm_shifted_right_one_bit` -/
def scanShifted : Bool :=
  (List.range 7).all fun i => locOf (Sync.scan (Sync.new (Reader.ofBytes (shifted.getD i [])) 0)) == some ⟨5, BitVec.ofNat 8 (7 - i)⟩

/-- Two rounds of `scan` and `block`. -/
def twoBlocks (s : Sync.State) : Option (Loc × List U8 × Loc × List U8) :=
  match Sync.scan s with
  | .ret (.ok (some l1), s) =>
    match Sync.block s with
    | (.ok b1, s) =>
      match Sync.scan s with
      | .ret (.ok (some l2), s) =>
        match Sync.block s with
        | (.ok b2, _) => some (l1, b1, l2, b2)
        | _ => none
      | _ => none
    | _ => none
  | _ => none

/-- framing/synchronizer.rs:375-393 `block_fcn_returns_correct_bytes_with_no_shift` -/
def blocksTest : Bool :=
  twoBlocks ((Sync.new (Reader.ofBytes [0x55, 0x01, 0x02, 0x00, 0x00, 0x55, 0x03, 0x04, 0x00, 0x00]) 2).withAsm [0x55]) ==
    some (⟨2, 0⟩, [1, 2], ⟨7, 0⟩, [3, 4])

/-- framing/synchronizer.rs:396-427 `block_fcn_returns_correct_bytes_when_shifted_1` -/
def blocksShifted : Bool :=
  twoBlocks ((Sync.new (Reader.ofBytes [0b00101010, 0b10000000, 0b10000001, 0, 0, 0b00101010, 0b10000001, 0b10000010, 0, 0, 0]) 2).withAsm [0x55]) ==
    some (⟨2, 7⟩, [1, 2], ⟨7, 7⟩, [3, 4])

/-- framing/pn.rs:124-142 `test_filp_bits`, `test_generate_pn_sequence` -/
def pnTest : Bool :=
  Pn.flipBits 0xaa == 0x55 && Pn.flipBits 0 == 0 && Pn.flipBits 0xf0 == 0x0f &&
  (Pn.generatePnSequence 0xa9 0xff).take 4 == [0xff, 0x48, 0x0e, 0xc0]

example : pnTest = true := by decide +kernel

/-- framing/pn.rs:144-160 `derandomize::test_loop` -/
def derandomizeTest : Bool := Pn.derandomize [0x98, 0x18, 0x98, 0x82, 0x8c, 0x8d] == [0x67, 0x50, 0x96, 0x42, 0x16, 0x80]

example : derandomizeTest = true := by decide +kernel

/-- framing/reed_solomon.rs:258-265 `test_deinterlace` -/
def deinterleaveTest : Bool :=
  match RS.deinterleave [0, 1, 2, 3, 0, 1, 2, 3] 4 with
  | .ret z => (List.range 4).all fun i => (z.getD i []).take 2 == [BitVec.ofNat 8 i, BitVec.ofNat 8 i]
  | .panic => false

example : deinterleaveTest = true := by decide +kernel

/-- framing/reed_solomon.rs:237-255 `FIXTURE_MSG` -/
def fixtureMsg : List U8 := [
  0x67, 0xc4, 0x6b, 0xa7, 0x3e, 0xbe, 0x4c, 0x33, 0x6c, 0xb2, 0x23, 0x3a, 0x74, 0x06, 0x2b, 0x18, 0xab, 0xb8, 0x09, 0xe6,
  0x7d, 0xaf, 0x5d, 0xe5, 0xdf, 0x76, 0x25, 0x3f, 0xb9, 0x14, 0xee, 0xec, 0xd1, 0xa3, 0x39, 0x5f, 0x38, 0x68, 0xf0, 0x26,
  0xa6, 0x8a, 0xcb, 0x09, 0xaf, 0x4e, 0xf8, 0x93, 0xf7, 0x45, 0x4b, 0x0d, 0xa9, 0xb8, 0x74, 0x0e, 0xf3, 0xc7, 0xed, 0x6e,
  0xa3, 0x0f, 0xf6, 0x79, 0x94, 0x16, 0xe2, 0x7f, 0xad, 0x91, 0x91, 0x04, 0xac, 0xa4, 0xae, 0xb4, 0x51, 0x76, 0x2f, 0x62,
  0x03, 0x5e, 0xa1, 0xe5, 0x5c, 0x45, 0xf8, 0x1f, 0x7a, 0x7b, 0xe8, 0x35, 0xd8, 0xcc, 0x51, 0x0e, 0xae, 0x3a, 0x2a, 0x64,
  0x1d, 0x03, 0x10, 0xcd, 0x18, 0xe6, 0x7f, 0xef, 0xba, 0xd9, 0xe8, 0x98, 0x47, 0x82, 0x9c, 0xa1, 0x58, 0x47, 0x25, 0xdf,
  0x41, 0xd2, 0x01, 0x62, 0x3c, 0x24, 0x88, 0x90, 0xe9, 0xd7, 0x38, 0x1b, 0xa0, 0xa2, 0xb4, 0x23, 0xea, 0x7e, 0x58, 0x0d,
  0xf4, 0x61, 0x24, 0x14, 0xb0, 0x41, 0x90, 0x0c, 0xb7, 0xbb, 0x5c, 0x59, 0x1b, 0xc6, 0x69, 0x24, 0x0f, 0xb6, 0x0e, 0x14,
  0xa1, 0xb1, 0x8e, 0x48, 0x0f, 0x17, 0x1d, 0xfb, 0x0f, 0x38, 0x42, 0xe3, 0x24, 0x58, 0xab, 0x82, 0xa8, 0xfd, 0xdf, 0xac,
  0x68, 0x93, 0x3d, 0x0d, 0x8f, 0x50, 0x52, 0x44, 0x6c, 0xba, 0xd3, 0x51, 0x99, 0x9c, 0x3e, 0xad, 0xd5, 0xa8, 0xd7, 0x9d,
  0xc7, 0x7f, 0x9f, 0xc9, 0x2a, 0xac, 0xe5, 0xc2, 0xcd, 0x9a, 0x9b, 0xfa, 0x2d, 0x72, 0xab, 0x6b, 0xa4, 0x6b, 0x8b, 0x7d,
  0xfa, 0x6c, 0x83, 0x63, 0x77, 0x9f, 0x4e, 0x9a, 0x20, 0x35, 0xd2, 0x91, 0xce, 0xf4, 0x21, 0x1a, 0x97, 0x3c, 0x1a, 0x15,
  0x9d, 0xfc, 0x98, 0xba, 0x72, 0x1b, 0x9a, 0xa2, 0xe9, 0xc9, 0x46, 0x68, 0xce, 0xad, 0x27]

/-- framing/reed_solomon.rs:267-276, the code block made of the same message `n` times. -/
def fixtureBlock (n : Nat) : List U8 := fixtureMsg.flatMap fun b => List.replicate n b

/-- A stand-in for `rs2` for this test: the fixture is correct, any other message is corrected to it with one error. -/
def fixtureCodec : Codec :=
  ⟨fun m => m != fixtureMsg, fun m => if m = fixtureMsg then (.ok, some m) else (.corrected 1, some fixtureMsg)⟩

def addOne (n : Nat) (l : List U8) : List U8 := l.set n (l.getD n 0 + 1)

/-- framing/reed_solomon.rs:267-309 `test_correct_codeblock`, everything but the decoder. -/
def correctTest (n : U8) : Bool :=
  let good := fixtureBlock n.toNat
  let clean := (fixtureBlock n.toNat).take (223 * n.toNat)
  good.length == 255 * n.toNat &&
  RS.perform fixtureCodec (RS.Config.new n) good == .ret (.ok (.ok, clean)) &&
  RS.perform fixtureCodec (RS.Config.new n) (addOne 100 good) == .ret (.ok (.corrected, clean))

def correctTests : Bool := correctTest 4 && correctTest 5

/-- framing/mod.rs:264-293 `decode_vcduheader`, `…_unsupported_version_is_none`, `…_is_err_when_data_too_short` -/
def vcduTest : Bool :=
  (match VCDUHeader.decode [0x55, 0x61, 0x01, 0xe2, 0x40, 0x05, 0x01, 0x02, 0x03, 0x04, 0x05, 0x06, 0x07, 0x08, 0x09, 0x0a, 0xaa] with
    | some h => h.version == 1 && h.scid == 85 && h.vcid == 33 && h.counter == 123456
    | none => false) &&
  VCDUHeader.decode [0xff, 0xff, 0xff, 0xff, 0xff, 0xff] == none && VCDUHeader.decode [] == none

example : vcduTest = true := by decide +kernel

/-- framing/mod.rs:296-303 `test_missing_frames` -/
def missingFramesTest : Bool :=
  builds.all fun b =>
    missingFrames b 5 4 == .ret 0 && missingFrames b 5 3 == .ret 1 && missingFrames b 0 VCDUHeader.COUNTER_MAX == .ret 0 &&
    missingFrames b 0 (VCDUHeader.COUNTER_MAX - 1) == .ret 1 && missingFrames b 0 0 == .ret VCDUHeader.COUNTER_MAX

example : missingFramesTest = true := by decide +kernel

/-- timecode.rs:191-198 `cds` and the doc example timecode.rs:64-74: 2024-11-01T00:00:01.684519Z is 3939408001 s after 1900. -/
def cdsTest : Bool :=
  builds.all fun b =>
    Timecode.decode b (.cds 2 2) [0x5f, 0x5b, 0x00, 0x00, 0x06, 0x94, 0x02, 0x07] == .ret (.ok ⟨.utc, 3939408001684519000⟩)

example : cdsTest = true := by decide +kernel

/-- timecode.rs:201-209 `eos_cuc`: 2024-10-31T10:49:19.498544800 TAI; `15200.0 = 475 * 2^5`. -/
def cucTest : Bool :=
  builds.all fun b =>
    Timecode.decode b (.cuc 4 2 (some (.fin false 475 5))) [0x7d, 0xb5, 0xbf, 0x2f, 0x80, 0x1f] == .ret (.ok ⟨.tai, 3939360559498544800⟩)

example : cucTest = true := by decide +kernel

def cdsPacket : List U8 := [0x0b, 0x20, 0x52, 0xc4, 0x00, 0xad, 0x5c, 0xbd, 0x03, 0xc4, 0x1a, 0x6e, 0x03, 0xc9]

/-- spacepacket/timecode.rs:56-74 `test_cds`: 2023-01-01T17:33:03.470969000 UTC -/
def packetTimeTest : Bool :=
  match PrimaryHeader.decode cdsPacket with
  | .ok h => builds.all fun b => TimecodeDecoder.decode b (TimecodeDecoder.new (.cds 2 2)) ⟨h, cdsPacket, 0⟩ == .ret (.ok ⟨.utc, 3881583183470969000⟩)
  | .error _ => false

example : packetTimeTest = true := by decide +kernel

def dat1 : List U8 := [0xd, 0x59, 0xc0, 0x01, 0x0, 0x8, 0x52, 0xc0, 0x0, 0x0, 0x0, 0xa7, 0x0, 0xdb, 0xff]
def dat2 : List U8 := [0xd, 0x59, 0xc0, 0x02, 0x0, 0x8, 0x52, 0xc0, 0x0, 0x0, 0x0, 0xa7, 0x0, 0xdb, 0xff]

def checkSummary (ps : List Packet) : Bool :=
  builds.all fun b =>
    match Summary.addAll b Summary.default ps with
    | .ret s =>
      s.count == 2 && s.bytes == 30 && s.missing == 0 && s.apids.length == 1 &&
      (match s.apids.get? 1369 with
        | some a => a.count == 2 && a.bytes == 30 && a.missing == 0
        | none => false)
    | .panic => false

/-- spacepacket/summary.rs:67-92 `summary` -/
def summaryTest : Bool :=
  match Packet.decode dat1, Packet.decode dat2 with
  | .ok p, .ok q => checkSummary [p, q]
  | _, _ => false

example : summaryTest = true := by decide +kernel

/-- spacepacket/mod.rs:587-612 `test_decode_packet`, `test_decode_header` -/
def headerTest : Bool :=
  (match Packet.decode [0xd, 0x59, 0xd2, 0xab, 0x0, 0x8, 0x52, 0xc0, 0x0, 0x0, 0x0, 0xa7, 0x0, 0xdb, 0xff] with
    | .ok p => p.header.version == 0
    | .error _ => false) &&
  (match PrimaryHeader.decode [0xd, 0x59, 0xd2, 0xab, 0xa, 0x8f] with
    | .ok h => h.version == 0 && h.typeFlag == 0 && h.hasSecondaryHeader && h.apid == 1369 && h.sequenceFlags == 3 &&
      h.sequenceId == 4779 && h.lenMinus1 == 2703
    | .error _ => false)

example : headerTest = true := by decide +kernel

/-- Calls `next` until it returns `None` or panics, at most `fuel` times; `none` if the end is not reached. -/
def run {σ α : Type} (next : σ → Outcome (Option α × σ)) : Nat → σ → Option (List α)
  | 0, _ => none
  | fuel + 1, s =>
    match next s with
    | .panic => none
    | .ret (none, _) => some []
    | .ret (some a, s) => (run next fuel s).map (a :: ·)

/-- spacepacket/mod.rs:615-639 `packet_iter_test` -/
def packetIterTest : Bool :=
  match run PacketDecoder.next 5 (PacketDecoder.new (Reader.ofBytes (dat1 ++ dat2))) with
  | some [.ok p, .ok q] =>
    p.header.apid == 1369 && p.header.sequenceId == 1 && p.data == dat1 && q.header.sequenceId == 2 && q.data == dat2 && checkSummary [p, q]
  | _ => false

example : packetIterTest = true := by decide +kernel

/-- spacepacket/mod.rs:642-649 `test_missing_packets` -/
def missingPacketsTest : Bool :=
  builds.all fun b =>
    missingPackets b 5 4 == .ret 0 && missingPackets b 5 3 == .ret 1 && missingPackets b 0 PrimaryHeader.SEQ_MAX == .ret 0 &&
    missingPackets b 0 (PrimaryHeader.SEQ_MAX - 1) == .ret 1 && missingPackets b 0 0 == .ret PrimaryHeader.SEQ_MAX

example : missingPacketsTest = true := by decide +kernel

def docDat : List U8 := [0xd, 0x59, 0xd2, 0xab, 0x0, 0x07, 0x52, 0xc0, 0x0, 0x0, 0x0, 0xa7, 0x0, 0xdb, 0xff, 0xff]

/-- The doc examples spacepacket/mod.rs:35-49, 415-431, 456-474. The header announces 14 bytes, the examples supply 16: `Packet::decode`
keeps all of them, `decode_packets` delivers one packet of 14 and then stops at the two bytes left. -/
def docTest : Bool :=
  (match Packet.decode docDat with
    | .ok p => p.header.apid == 1369 &&
      (match run PacketGroupIter.next 5 (PacketGroupIter.new [p]) with
        | some [.ok g] => g.apid == 1369
        | _ => false)
    | .error _ => false) &&
  (match run PacketDecoder.next 5 (PacketDecoder.new (Reader.ofBytes docDat)) with
    | some [.ok p] => p.header.apid == 1369
    | _ => false)

example : docTest = true := by decide +kernel

/-- The doc example framing/pipeline/packets.rs:31-37: the header decodes and the iteration comes to an end. -/
def packetDecoderDoc : Bool :=
  match Frame.decode (List.replicate 1020 0#8) with
  | some f => (run FramedPackets.next 200 (FramedPackets.new [f] 0 0)).isSome
  | none => false

/-- ccsds-py/tests/test.py:17-35 `test_packet`, `test_timecode`: 2016-01-01T00:00:00.167219 UTC -/
def pyTest : Bool :=
  (match Py.packetNew dat1 with
    | some p => p.header.apid == 1369 && p.header.lenMinus1.toNat == dat1.length - 6 - 1 && p.data.length == dat1.length &&
      p.data.take 6 == dat1.take 6 && Py.userData p == .ret (dat1.drop 6)
    | none => false) &&
  builds.all fun b => Timecode.decodeJpss b (dat1.drop 6) == .ret (.ok ⟨.utc, 3660595200167219000⟩)

example : pyTest = true := by decide +kernel

/-- Every test, for the executable driver `Verif.Conformance`. -/
def all : List (String × Bool) :=
  [("bytes::test", bytesTest), ("bytes::read_exact_with_no_cache", bytesNoCache), ("bytes::read_exact_cache_does_not_contain_enough", bytesShortCache),
    ("bytes::fill_returns", bytesFill), ("bytes::read_exact_cache_contains_enough", bytesEnoughCache), ("synchronizer::left_shift", leftShiftTest),
    ("synchronizer::create_patterns", patternsTest), ("synchronizer::scan", scanTest), ("synchronizer::scan shifted", scanShifted),
    ("synchronizer::block", blocksTest), ("synchronizer::block shifted", blocksShifted), ("pn", pnTest), ("pn::derandomize", derandomizeTest),
    ("reed_solomon::deinterleave", deinterleaveTest), ("reed_solomon::perform", correctTests), ("framing::vcdu header", vcduTest),
    ("framing::missing_frames", missingFramesTest), ("timecode::cds", cdsTest), ("timecode::eos_cuc", cucTest),
    ("spacepacket::timecode", packetTimeTest), ("spacepacket::summary", summaryTest), ("spacepacket::header", headerTest),
    ("spacepacket::packet_iter", packetIterTest), ("spacepacket::missing_packets", missingPacketsTest), ("spacepacket docs", docTest),
    ("packet_decoder docs", packetDecoderDoc), ("python", pyTest)]

end Ccsds.UnitTests
