import Verif.Model.Reader
/-!
# `ccsds-lib/src/spacepacket/mod.rs`
-/
namespace Ccsds

/-- spacepacket/mod.rs:195-206 `PrimaryHeader`. -/
structure PrimaryHeader where
  version : U8
  typeFlag : U8
  hasSecondaryHeader : Bool
  apid : U16
  sequenceFlags : U8
  sequenceId : U16
  lenMinus1 : U16
  deriving DecidableEq, Repr

/-- `u16::from_be_bytes([a, b])`. -/
def be16 (a b : U8) : U16 := a ++ b

namespace PrimaryHeader

/-- spacepacket/mod.rs:254 `PrimaryHeader::LEN`. -/
def LEN : Nat := 6
/-- spacepacket/mod.rs:256 `SEQ_MAX`. -/
def SEQ_MAX : U16 := 16383
/-- spacepacket/mod.rs:258 -/
def SEQ_FIRST : U8 := 1
/-- spacepacket/mod.rs:260 -/
def SEQ_CONTINUATION : U8 := 0
/-- spacepacket/mod.rs:262 -/
def SEQ_LAST : U8 := 2
/-- spacepacket/mod.rs:264 -/
def SEQ_UNSEGMENTED : U8 := 3

/-- spacepacket/mod.rs:268-288 `PrimaryHeader::decode`. The `buf.len() < LEN` test followed by indexing
`buf[0] .. buf[5]` is a pattern match here. -/
def decode (buf : List U8) : Except Error PrimaryHeader :=
  match buf with
  | b0 :: b1 :: b2 :: b3 :: b4 :: b5 :: _ =>
    let d1 := be16 b0 b1
    let d2 := be16 b2 b3
    let d3 := be16 b4 b5
    .ok {
      version := ((d1 >>> 13) &&& 0x7#16).setWidth 8
      typeFlag := ((d1 >>> 12) &&& 0x1#16).setWidth 8
      hasSecondaryHeader := ((d1 >>> 11) &&& 0x1#16) == 1#16
      apid := d1 &&& 0x7ff#16
      sequenceFlags := ((d2 >>> 14) &&& 0x3#16).setWidth 8
      sequenceId := d2 &&& 0x3fff#16
      lenMinus1 := d3 }
  | _ => .error (.notEnoughData buf.length LEN)

end PrimaryHeader

/-- spacepacket/mod.rs:53-61 `Packet`. -/
structure Packet where
  header : PrimaryHeader
  data : List U8
  offset : Nat
  deriving DecidableEq, Repr

namespace Packet

/-- spacepacket/mod.rs:77 `Packet::MAX_LEN`. -/
def MAX_LEN : Nat := 65536

/-- spacepacket/mod.rs:112-114 -/
def isFirst (p : Packet) : Bool := p.header.sequenceFlags == PrimaryHeader.SEQ_FIRST
/-- spacepacket/mod.rs:117-119 -/
def isLast (p : Packet) : Bool := p.header.sequenceFlags == PrimaryHeader.SEQ_LAST
/-- spacepacket/mod.rs:122-124 -/
def isCont (p : Packet) : Bool := p.header.sequenceFlags == PrimaryHeader.SEQ_CONTINUATION
/-- spacepacket/mod.rs:127-129 -/
def isStandalone (p : Packet) : Bool := p.header.sequenceFlags == PrimaryHeader.SEQ_UNSEGMENTED

/-- spacepacket/mod.rs:138-159 `Packet::decode`. -/
def decode (buf : List U8) : Except Error Packet :=
  if buf.length < PrimaryHeader.LEN then
    .error (.notEnoughData buf.length PrimaryHeader.LEN)
  else
    match PrimaryHeader.decode (buf.take PrimaryHeader.LEN) with
    | .error e => .error e
    | .ok ph =>
      let totalLen := PrimaryHeader.LEN + (ph.lenMinus1.toNat + 1)
      if buf.length < totalLen then
        .error (.notEnoughData buf.length totalLen)
      else
        .ok { header := ph, data := buf.take totalLen, offset := 0 }

/-- spacepacket/mod.rs:165-187 `Packet::read`. The 65536-byte scratch buffer starts as zeros; only its first
`total_len` bytes, all overwritten by the two `read_exact` calls, reach the packet, so the bytes are concatenated. -/
def read (r : Reader) : Outcome (Except Error Packet × Reader) :=
  match r.readExact PrimaryHeader.LEN with
  | (some k, _, r1) => .ret (.error (.io k), r1)
  | (none, hdr, r1) =>
    match PrimaryHeader.decode hdr with
    | .error e => .ret (.error e, r1)
    | .ok ph =>
      let dataLen := ph.lenMinus1.toNat + 1
      let totalLen := PrimaryHeader.LEN + dataLen
      if totalLen ≤ MAX_LEN then
        match r1.readExact (totalLen - PrimaryHeader.LEN) with
        | (some k, _, r2) => .ret (.error (.io k), r2)
        | (none, body, r2) => .ret (.ok { header := ph, data := hdr ++ body, offset := 0 }, r2)
      else .panic -- the `assert!` at mod.rs:176-179

end Packet

/-- spacepacket/mod.rs:372-375 `PacketDecoder`. -/
structure PacketDecoder where
  reader : Reader
  offset : Nat
  deriving DecidableEq, Repr

namespace PacketDecoder

/-- spacepacket/mod.rs:378-380, 436-441 `PacketDecoder::new` / `decode_packets`. -/
def new (r : Reader) : PacketDecoder := ⟨r, 0⟩

/-- spacepacket/mod.rs:389-405 `PacketDecoder::next`. -/
def next (s : PacketDecoder) : Outcome (Option (Except Error Packet) × PacketDecoder) :=
  match Packet.read s.reader with
  | .panic => .panic
  | .ret (.ok p, r) =>
    .ret (some (.ok { p with offset := s.offset }),
      { reader := r, offset := s.offset + (PrimaryHeader.LEN + (p.header.lenMinus1.toNat + 1)) })
  | .ret (.error e, r) =>
    if e = .io .unexpectedEof then .ret (none, { s with reader := r })
    else .ret (some (.error e), { s with reader := r })

end PacketDecoder

/-- spacepacket/mod.rs:357-370 `missing_packets`, in `u16` arithmetic. Rust evaluates `last + 1` up to three times;
each evaluation has the same outcome, so it is computed once. -/
def missingPackets (b : Build) (cur last : U16) : Outcome U16 := do
  let last1 ← b.add last 1
  let expected := if last1 > PrimaryHeader.SEQ_MAX then 0 else last1
  if cur ≠ expected then
    if last1 > cur then do
      let x ← b.add cur PrimaryHeader.SEQ_MAX
      b.sub x last
    else do
      let x ← b.sub cur last
      b.sub x 1
  else
    pure 0

/-- spacepacket/mod.rs:296-299 `PacketGroup`. -/
structure PacketGroup where
  apid : U16
  packets : List Packet
  deriving DecidableEq, Repr

namespace PacketGroup

/-- The loop of `have_missing` over adjacent packets (mod.rs:344-348). -/
def missingLoop (b : Build) : List Packet → Outcome Bool
  | x :: y :: rest => do
    let m ← missingPackets b y.header.sequenceId x.header.sequenceId
    if m > 0 then pure true else missingLoop b (y :: rest)
  | _ => pure false

/-- spacepacket/mod.rs:343-350 `have_missing`; `self.packets[1..]` panics on an empty vector. -/
def haveMissing (b : Build) (g : PacketGroup) : Outcome Bool :=
  if g.packets = [] then .panic else missingLoop b g.packets

/-- spacepacket/mod.rs:329-339 `complete`. -/
def complete (b : Build) (g : PacketGroup) : Outcome Bool :=
  match g.packets with
  | [] => pure false
  | [p] => pure p.isStandalone
  | p :: q :: rest =>
    if p.isFirst && ((q :: rest).getLast (by simp)).isLast then do
      let m ← haveMissing b g
      pure !m
    else pure false

end PacketGroup

/-- spacepacket/mod.rs:482-489 `PacketGroupIter`. -/
structure PacketGroupIter where
  packets : List Packet
  cached : Option Packet
  done : Bool
  deriving DecidableEq, Repr

namespace PacketGroupIter

/-- spacepacket/mod.rs:475-480, 499-505 `collect_groups` / `with_packets`. -/
def new (packets : List Packet) : PacketGroupIter := ⟨packets, none, false⟩

/-- The `loop` of `next` (mod.rs:521-561) once the packet to look at comes from the underlying iterator
(`cached` is empty): either it returns a group (with the packet to cache), or it `break`s with the group so far. -/
def loop : List Packet → Option PacketGroup → (Option PacketGroup × PacketGroupIter) ⊕ Option PacketGroup
  | [], group => .inr group
  | p :: ps, none =>
    if p.isStandalone then .inl (some ⟨p.header.apid, [p]⟩, ⟨ps, none, false⟩)
    else loop ps (some ⟨p.header.apid, [p]⟩)
  | p :: ps, some g =>
    -- `group.packets[0]` exists: a group is only ever created with one packet
    if some p.header.apid ≠ g.packets.head?.map (·.header.apid) then .inl (some g, ⟨ps, some p, false⟩)
    else loop ps (some { g with packets := g.packets ++ [p] })

/-- spacepacket/mod.rs:514-577 `PacketGroupIter::next`. A cached packet is looked at first, exactly as if it were the
next packet of the underlying iterator. Items are `Ok(group)`. -/
def next (s : PacketGroupIter) : Outcome (Option (Except Error PacketGroup) × PacketGroupIter) :=
  if s.done then .ret (none, s)
  else
    match loop (s.cached.toList ++ s.packets) none with
    | .inl (some g, s') => .ret (some (.ok g), s')
    | .inl (none, s') => .ret (none, s')
    | .inr (some g) => .ret (some (.ok g), ⟨[], none, false⟩)
    | .inr none => .ret (none, ⟨[], none, true⟩) -- the cache was taken by the loop, so it is empty here

end PacketGroupIter
end Ccsds
