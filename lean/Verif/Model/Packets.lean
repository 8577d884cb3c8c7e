import Verif.Model.Frame
/-!
# `ccsds-lib/src/framing/packets.rs` and `ccsds-lib/src/framing/pipeline/packets.rs`
-/
namespace Ccsds

/-- packets.rs:13-39 `VcidTracker`. `rs_corrected` is written but never read, as in the code. -/
structure Tracker where
  vcid : U16
  cache : List U8
  rsCorrected : Bool
  sync : Bool
  deriving DecidableEq, Repr

namespace Tracker
/-- packets.rs:25-32 -/
def new (vcid : U16) : Tracker := ⟨vcid, [], false, false⟩
/-- packets.rs:34-38 -/
def reset (t : Tracker) : Tracker := { t with cache := [], sync := false, rsCorrected := false }
end Tracker

namespace FramedPackets

/-- packets.rs:223-229 `valid_packet_header`. -/
def validHeader (h : PrimaryHeader) : Bool := !(h.version != 0 || h.typeFlag != 0)

/-- packets.rs:161-212: take packets off the front of the tracker's cache. The tests made once before the inner loop
(164-182) and at the end of each pass through it (199-211) are the same three tests; they are written once here. Returns the
packets pushed to `ready` and the tracker. -/
def drain (t : Tracker) : Outcome (List Packet × Tracker) :=
  if t.cache.length < PrimaryHeader.LEN then .ret ([], t)
  else
    match PrimaryHeader.decode t.cache with
    | .error _ => .panic
    | .ok header =>
      if !validHeader header then .ret ([], t.reset)
      else
        let need := header.lenMinus1.toNat + 1 + PrimaryHeader.LEN
        if _hneed : t.cache.length < need then .ret ([], t)
        else
          match PrimaryHeader.decode (t.cache.take need) with
          | .error _ => .panic
          | .ok h =>
            match drain { t with cache := t.cache.drop need } with
            | .panic => .panic
            | .ret (ps, t') => .ret ({ header := h, data := t.cache.take need, offset := 0 } :: ps, t')
termination_by t.cache.length
decreasing_by
  simp only [List.length_drop]
  omega

/-- packets.rs:110-214: one pass through the frame loop after the MPDU and the tracker were fetched. `continue` is an empty
list of packets. The payload length assertion inside `MPDU::payload` is kept. -/
def onFrame (mpdu : MPDU) (f : Frame) (t : Tracker) : Outcome (List Packet × Tracker) :=
  let t := if f.integrity = some .corrected then { t with rsCorrected := true } else t
  if f.integrity = some .uncorrectable ∨ f.integrity = some .notCorrected then .ret ([], t.reset)
  else
    let t := if f.missing.toNat > 0 then t.reset else t
    if t.sync then
      match mpdu.payload with
      | .panic => .panic
      | .ret payload => drain { t with cache := t.cache ++ payload }
    else if !mpdu.hasHeader then .ret ([], t)
    else if mpdu.isFill then .ret ([], t)
    else
      match mpdu.payload with
      | .panic => .panic
      | .ret payload =>
        if mpdu.headerOffset > payload.length then .ret ([], t)
        else drain { t with sync := true, cache := payload.drop mpdu.headerOffset }

/-- packets.rs:54-67 `FramedPacketIter`; the frame iterator is a finite list. -/
structure State where
  frames : List Frame
  izone : Nat
  trailer : Nat
  cache : HMap U16 Tracker
  ready : List Packet
  deriving DecidableEq, Repr

/-- packets.rs:73-81, pipeline/packets.rs:39-50 `packet_decoder`. -/
def new (frames : List Frame) (izone trailer : Nat) : State := ⟨frames, izone, trailer, [], []⟩

/-- packets.rs:97-108 and 110-215: the frame loop, until a frame yields a packet or the frames are used up. -/
def loop (izone trailer : Nat) : List Frame → HMap U16 Tracker → Outcome (Option Packet × State)
  | [], cache => .ret (none, ⟨[], izone, trailer, cache, []⟩)
  | f :: frames, cache =>
    match f.mpdu izone trailer with
    | .panic => .panic
    | .ret none => .panic -- `unwrap`
    | .ret (some mpdu) =>
      let t := (cache.get? f.header.vcid).getD (Tracker.new f.header.vcid)
      match onFrame mpdu f t with
      | .panic => .panic
      | .ret ([], t) => loop izone trailer frames (cache.insert f.header.vcid t)
      | .ret (p :: ps, t) => .ret (some p, ⟨frames, izone, trailer, cache.insert f.header.vcid t, ps⟩)

/-- packets.rs:90-220 `next`. -/
def next (s : State) : Outcome (Option Packet × State) :=
  match s.ready with
  | p :: ps => .ret (some p, { s with ready := ps })
  | [] => loop s.izone s.trailer s.frames s.cache

end FramedPackets
end Ccsds
