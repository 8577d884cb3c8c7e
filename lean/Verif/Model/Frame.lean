import Verif.Model.SpacePacket
import Verif.Model.HMap
import Verif.Model.Timecode
/-!
# `ccsds-lib/src/framing/mod.rs` and `ccsds-lib/src/framing/pipeline/framing.rs`
-/
namespace Ccsds

/-- synchronizer.rs:57-63 `Loc`. -/
structure Loc where
  offset : Nat
  bit : U8
  deriving DecidableEq, Repr

/-- synchronizer.rs:222-231 `Block`; `Cadu` (mod.rs:49) is an alias. -/
structure Block where
  last : Nat
  loc : Loc
  data : List U8
  deriving DecidableEq, Repr

/-- reed_solomon.rs:13-24 `Integrity`. -/
inductive Integrity where
  | ok | corrected | uncorrectable | notCorrected | failed
  deriving DecidableEq, Repr

/-- reed_solomon.rs:38-46 `Integrity::ok`. -/
def Integrity.isOk : Integrity → Bool
  | .ok | .corrected => true
  | _ => false

/-- framing/mod.rs:106-111 `VCDUHeader`. -/
structure VCDUHeader where
  version : U8
  scid : U16
  vcid : U16
  counter : U32
  deriving DecidableEq, Repr

namespace VCDUHeader

/-- framing/mod.rs:115 -/
def LEN : Nat := 6
/-- framing/mod.rs:117 -/
def FILL : U16 := 63
/-- framing/mod.rs:119 -/
def COUNTER_MAX : U32 := 0xffffff#32 - 1#32

/-- framing/mod.rs:145-153 `decode_v1` (on the bytes it indexes). -/
def decodeV1 (d0 d1 d2 d3 : U8) : VCDUHeader :=
  let x := be16 d0 d1
  { version := 0
    scid := (x >>> 4) &&& 0x3ff#16
    vcid := (x >>> 1) &&& 0x7#16
    counter := Timecode.be32 [0, 0, d2, d3] }

/-- framing/mod.rs:156-164 `decode_v2` (on the bytes it indexes). -/
def decodeV2 (d0 d1 d2 d3 d4 : U8) : VCDUHeader :=
  let x := be16 d0 d1
  { version := 1
    scid := (x >>> 6) &&& 0xff#16
    vcid := x &&& 0x3f#16
    counter := Timecode.be32 [0, d2, d3, d4] }

/-- framing/mod.rs:130-142 `VCDUHeader::decode`. The length test plus indexing is a pattern match. -/
def decode (dat : List U8) : Option VCDUHeader :=
  match dat with
  | d0 :: d1 :: d2 :: d3 :: d4 :: _ :: _ =>
    let ver := (d0 >>> 6) &&& 0x3#8
    if ver = 0#8 then some (decodeV1 d0 d1 d2 d3)
    else if ver = 1#8 then some (decodeV2 d0 d1 d2 d3 d4)
    else none
  | _ => none

end VCDUHeader

/-- framing/mod.rs:169-173 `MPDU`. -/
structure MPDU where
  firstHeader : U16
  data : List U8
  deriving DecidableEq, Repr

namespace MPDU

/-- framing/mod.rs:188 -/
def FILL : U16 := 0x7fe
/-- framing/mod.rs:191 -/
def NO_HEADER : U16 := 0x7ff

/-- framing/mod.rs:195-205 `MPDU::decode`. -/
def decode (data : List U8) : Option MPDU :=
  match data with
  | d0 :: d1 :: _ => some { firstHeader := be16 d0 d1 &&& 0x7ff#16, data := data }
  | _ => none

/-- framing/mod.rs:208-210 -/
def isFill (m : MPDU) : Bool := m.firstHeader == FILL

/-- framing/mod.rs:213-215 -/
def hasHeader (m : MPDU) : Bool := m.firstHeader != NO_HEADER

/-- framing/mod.rs:222-225 `payload`, with its assertion. -/
def payload (m : MPDU) : Outcome (List U8) :=
  if 2 ≤ m.data.length then .ret (m.data.drop 2) else .panic

/-- framing/mod.rs:228-230 -/
def headerOffset (m : MPDU) : Nat := m.firstHeader.toNat

end MPDU

/-- framing/mod.rs:59-71 `Frame`. -/
structure Frame where
  header : VCDUHeader
  missing : U32
  integrity : Option Integrity
  data : List U8
  deriving DecidableEq, Repr

namespace Frame

/-- framing/mod.rs:77-85 `Frame::decode`. -/
def decode (dat : List U8) : Option Frame :=
  match VCDUHeader.decode dat with
  | some header => some { header := header, missing := 0, integrity := none, data := dat }
  | none => none

/-- framing/mod.rs:88-90 -/
def isFill (f : Frame) : Bool := f.header.vcid == VCDUHeader.FILL

/-- framing/mod.rs:94-100 `Frame::mpdu`. `data.len() - trailer_length` underflows (panic with overflow checks; a wrapped,
out-of-range slice end, hence also a panic, without) iff the frame is shorter than the trailer; the slice `start..end`
panics iff `start > end`. -/
def mpdu (f : Frame) (izone trailer : Nat) : Outcome (Option MPDU) :=
  let start := VCDUHeader.LEN + izone
  if f.data.length < trailer then .panic
  else
    let stop := f.data.length - trailer
    if stop < start then .panic
    else .ret (MPDU.decode ((f.data.take stop).drop start))

end Frame

/-- framing/mod.rs:238-257 `missing_frames`. -/
def missingFrames (b : Build) (cur last : U32) : Outcome U32 :=
  if cur = last then .ret VCDUHeader.COUNTER_MAX
  else do
    let expected ← if last = VCDUHeader.COUNTER_MAX then (.ret 0#32 : Outcome U32) else b.add last 1#32
    if cur = expected then .ret 0#32
    else if cur.toNat < last.toNat then do
      let x ← b.sub VCDUHeader.COUNTER_MAX last
      b.add x cur
    else do
      let x ← b.sub cur last
      b.sub x 1#32

namespace FrameDecoder

/-- pipeline/framing.rs:5-11 `CaduDecoderIter`; the input iterator is a finite list. -/
structure State where
  counters : HMap U16 U32
  cadus : List Block
  deriving DecidableEq, Repr

/-- pipeline/framing.rs:46-56 `frame_decoder`. -/
def new (cadus : List Block) : State := ⟨[], cadus⟩

/-- pipeline/framing.rs:19-39 `next`. -/
def next (b : Build) (s : State) : Outcome (Option Frame × State) :=
  match s.cadus with
  | [] => .ret (none, s)
  | cadu :: rest =>
    match VCDUHeader.decode cadu.data with
    | some header => do
      let missing ←
        match (if header.vcid ≠ VCDUHeader.FILL then s.counters.get? header.vcid else none) with
        | some last => missingFrames b header.counter last
        | none => .ret 0#32
      .ret (some { header := header, missing := missing, integrity := none, data := cadu.data },
        { counters := s.counters.insert header.vcid header.counter, cadus := rest })
    | none => .ret (none, { s with cadus := rest })

end FrameDecoder
end Ccsds
