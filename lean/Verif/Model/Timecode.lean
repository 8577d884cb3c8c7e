import Verif.Model.SpacePacket
import Verif.Model.HMap
/-!
# `ccsds-lib/src/timecode.rs`, `ccsds-lib/src/spacepacket/timecode.rs` and the timecode helpers of `ccsds-py/src/lib.rs`

`hifitime` is external.  `Duration::compose` is taken to be exact in nanoseconds (its `f64`/`i16`-century internals are
outside this model) and an `Epoch` is its time scale plus nanoseconds since 1900-01-01 in that scale; two epochs of the same
scale compare by these nanoseconds.
-/
namespace Ccsds

/-- `hifitime::TimeScale`, the two scales the library produces. -/
inductive TimeScale where
  | utc
  | tai
  deriving DecidableEq, Repr

/-- `hifitime::Epoch`: nanoseconds since 1900-01-01 00:00:00 in the given scale. -/
structure Epoch where
  scale : TimeScale
  nanos : Nat
  deriving DecidableEq, Repr

/-- An IEEE-754 single: `± m * 2 ^ e`, infinity or NaN. -/
inductive F32 where
  | fin (neg : Bool) (m : Nat) (e : Int)
  | inf (neg : Bool)
  | nan
  deriving DecidableEq, Repr

/-- timecode.rs:26-51 `Format`. -/
inductive Format where
  | cds (numDay numSubmillis : Nat)
  | cuc (numCoarse numFine : Nat) (fineMult : Option F32)
  deriving DecidableEq, Repr

namespace Timecode

/-- timecode.rs:16 `CCSDS_HIFIEPOCH_DELTA_SECS`. -/
def DELTA_SECS : Nat := 1830297600
/-- timecode.rs:18 `NUM_CDS_MILLIS_OF_DAY_BYTES`. -/
def MILLIS_BYTES : Nat := 4

/-- `hifitime::Duration::compose(0, days, 0, 0, seconds, milliseconds, 0, nanoseconds)`, in nanoseconds (exact). -/
def compose (days seconds millis nanos : Nat) : Nat :=
  days * 86400000000000 + seconds * 1000000000 + millis * 1000000 + nanos

/-- `uN::from_be_bytes` on a list of at most `N / 8` bytes. -/
def beNat (bs : List U8) : Nat := bs.foldl (fun n b => n * 256 + b.toNat) 0

/-- `u32::from_be_bytes`. -/
def be32 (bs : List U8) : U32 := BitVec.ofNat 32 (beNat bs)

/-- timecode.rs:94-132 `decode_cds`. `4 - num_day` underflows for `num_day > 4`: an overflow panic with overflow checks, a
`vec![0; huge]` capacity panic without. The index expressions `rest[4]` … are in bounds after the length check. -/
def decodeCds (b : Build) (numDay numSubmillis : Nat) (buf : List U8) : Outcome (Except Error Epoch) :=
  let want := numDay + numSubmillis + MILLIS_BYTES
  if buf.length < want then .ret (.error (.notEnoughData buf.length want))
  else if 4 < numDay then .panic
  else
    let x := buf.take numDay
    let rest := buf.drop numDay
    let days := be32 (List.replicate (4 - numDay) 0 ++ x)
    let millis := be32 (rest.take 4)
    let finish (nanos : U32) : Outcome (Except Error Epoch) :=
      .ret (.ok ⟨.utc, compose days.toNat DELTA_SECS millis.toNat nanos.toNat⟩)
    match numSubmillis with
    | 0 => finish 0
    | 2 => do
      let nanos ← b.mul (be32 ([0, 0] ++ (rest.drop 4).take 2)) 1000
      finish nanos
    | 4 => do
      let nanos ← b.mul (be32 ((rest.drop 4).take 4)) 1000000
      finish nanos
    | _ => .ret (.error .timecodeConfig)

/-- `(fine as f64 * mult as f64).trunc() as u64` (timecode.rs:177-180). `fine < 2^24` and a single has a 24-bit
significand, so the double-precision product is exact; `as u64` saturates and sends NaN to 0. -/
def fineNanos (fine : Nat) (mult : F32) : Nat :=
  match mult with
  | .fin neg m e =>
    if neg then 0
    else min (2 ^ 64 - 1) (if e < 0 then fine * m / 2 ^ e.natAbs else fine * m * 2 ^ e.natAbs)
  | .inf neg => if neg then 0 else if fine = 0 then 0 else 2 ^ 64 - 1
  | .nan => 0

/-- The literal `1.0`. -/
def F32one : F32 := .fin false 1 0

/-- timecode.rs:134-182 `decode_cuc`. -/
def decodeCuc (numCoarse numFine : Nat) (fineMult : Option F32) (buf : List U8) : Outcome (Except Error Epoch) :=
  if ¬ (1 ≤ numCoarse ∧ numCoarse ≤ 4) then .ret (.error .timecodeConfig)
  else if ¬ (numFine ≤ 3) then .ret (.error .timecodeConfig)
  else if buf.length < numCoarse + numFine then .ret (.error (.notEnoughData buf.length (numCoarse + numFine)))
  else
    let x := buf.take numCoarse
    let rest := buf.drop numCoarse
    let coarse := beNat (List.replicate (8 - numCoarse) 0 ++ x)
    let x := rest.take numFine
    let fine := beNat (List.replicate (8 - numFine) 0 ++ x)
    let coarse := coarse + DELTA_SECS
    .ret (.ok ⟨.tai, compose 0 coarse 0 (fineNanos fine (fineMult.getD F32one))⟩)

/-- timecode.rs:80-92 `decode`. -/
def decode (b : Build) (format : Format) (buf : List U8) : Outcome (Except Error Epoch) :=
  match format with
  | .cds numDay numSubmillis => decodeCds b numDay numSubmillis buf
  | .cuc numCoarse numFine fineMult => decodeCuc numCoarse numFine fineMult buf

/-- ccsds-py/src/lib.rs:144-154 `_decode_eos_timecode`; `15200.0 = 475 * 2^5`. -/
def decodeEos (b : Build) (buf : List U8) : Outcome (Except Error Epoch) :=
  decode b (.cuc 2 4 (some (.fin false 475 5))) buf

/-- ccsds-py/src/lib.rs:159-168 `_decode_jpss_timecode`. -/
def decodeJpss (b : Build) (buf : List U8) : Outcome (Except Error Epoch) :=
  decode b (.cds 2 2) buf

end Timecode

/-- spacepacket/timecode.rs:15-18 `TimecodeDecoder`. -/
structure TimecodeDecoder where
  formats : HMap U16 Format
  default : Format
  deriving DecidableEq, Repr

namespace TimecodeDecoder

/-- spacepacket/timecode.rs:21-26 `new`. -/
def new (default : Format) : TimecodeDecoder := ⟨[], default⟩

/-- spacepacket/timecode.rs:29-33 `register`. -/
def register (d : TimecodeDecoder) (format : Format) (apids : List U16) : TimecodeDecoder :=
  { d with formats := apids.foldl (fun m a => m.insert a format) d.formats }

/-- spacepacket/timecode.rs:40-46 `decode`; `&packet.data[6..]` panics on shorter data. -/
def decode (b : Build) (d : TimecodeDecoder) (p : Packet) : Outcome (Except Error Epoch) :=
  let fmt := (d.formats.get? p.header.apid).getD d.default
  if p.data.length < PrimaryHeader.LEN then .panic
  else Timecode.decode b fmt (p.data.drop PrimaryHeader.LEN)

end TimecodeDecoder
end Ccsds
