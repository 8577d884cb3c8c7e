import Verif.Model.Frame
import Verif.Spec.Frame
import Verif.Spec.Sequence
import Verif.Proofs.SpacePacket
import Verif.Proofs.Timecode
/-!
# C33–C36: transfer frames
-/
namespace Ccsds
open Spec Timecode

/-! ## C33  VCDU header decode is the exact bit layout -/

theorem vcdu_key (b0 b1 b2 b3 b4 b5 : U8) (rest : List U8) (s w : Nat) (hsw : s + w ≤ 48) :
    field (b0 :: b1 :: b2 :: b3 :: b4 :: b5 :: rest) s w
      = (b0.toNat * 1099511627776 + b1.toNat * 4294967296 + b2.toNat * 16777216 + b3.toNat * 65536 + b4.toNat * 256
          + b5.toNat) / 2 ^ (48 - s - w) % 2 ^ w := by
  rw [← field_take _ 6 s w (by omega)]
  simp only [List.take_succ_cons, List.take_zero]
  rw [field_eq _ _ _ (by simpa using hsw), bits6]
  simp

theorem version_toNat (b0 : U8) : ((b0 >>> 6) &&& 0x3#8).toNat = b0.toNat / 64 := by
  have := b0.isLt
  simp only [BitVec.toNat_and, BitVec.toNat_ushiftRight, BitVec.toNat_ofNat, Nat.shiftRight_eq_div_pow, Nat.reduceMod,
    Nat.reducePow]
  rw [and_mask _ 2 3 rfl]; omega

theorem decodeV1_fields (b0 b1 b2 b3 : U8) :
    (VCDUHeader.decodeV1 b0 b1 b2 b3).scid.toNat = b0.toNat % 64 * 16 + b1.toNat / 16 ∧
    (VCDUHeader.decodeV1 b0 b1 b2 b3).vcid.toNat = b1.toNat / 2 % 8 ∧
    (VCDUHeader.decodeV1 b0 b1 b2 b3).counter.toNat = b2.toNat * 256 + b3.toNat := by
  have h0 := b0.isLt
  have h1 := b1.isLt
  refine ⟨?_, ?_, ?_⟩
  · simp only [VCDUHeader.decodeV1, BitVec.toNat_and, BitVec.toNat_ushiftRight, be16_toNat, BitVec.toNat_ofNat,
      Nat.shiftRight_eq_div_pow, Nat.reduceMod, Nat.reducePow]
    rw [and_mask _ 10 1023 rfl]; omega
  · simp only [VCDUHeader.decodeV1, BitVec.toNat_and, BitVec.toNat_ushiftRight, be16_toNat, BitVec.toNat_ofNat,
      Nat.shiftRight_eq_div_pow, Nat.reduceMod, Nat.reducePow]
    rw [and_mask _ 3 7 rfl]; omega
  · simp only [VCDUHeader.decodeV1]
    rw [be32_toNat _ (by simp)]
    simp [beNat_cons, show beNat [] = 0 from rfl]

theorem decodeV2_fields (b0 b1 b2 b3 b4 : U8) :
    (VCDUHeader.decodeV2 b0 b1 b2 b3 b4).scid.toNat = b0.toNat % 64 * 4 + b1.toNat / 64 ∧
    (VCDUHeader.decodeV2 b0 b1 b2 b3 b4).vcid.toNat = b1.toNat % 64 ∧
    (VCDUHeader.decodeV2 b0 b1 b2 b3 b4).counter.toNat = b2.toNat * 65536 + b3.toNat * 256 + b4.toNat := by
  have h0 := b0.isLt
  have h1 := b1.isLt
  refine ⟨?_, ?_, ?_⟩
  · simp only [VCDUHeader.decodeV2, BitVec.toNat_and, BitVec.toNat_ushiftRight, be16_toNat, BitVec.toNat_ofNat,
      Nat.shiftRight_eq_div_pow, Nat.reduceMod, Nat.reducePow]
    rw [and_mask _ 8 255 rfl]; omega
  · simp only [VCDUHeader.decodeV2, BitVec.toNat_and, be16_toNat, BitVec.toNat_ofNat, Nat.reduceMod, Nat.reducePow]
    rw [and_mask _ 6 63 rfl]; omega
  · simp only [VCDUHeader.decodeV2]
    rw [be32_toNat _ (by simp)]
    simp [beNat_cons, show beNat [] = 0 from rfl]
    omega

/-- The three outcomes of `VCDUHeader::decode`. -/
theorem C33_fields (bs : List U8) :
    (bs.length < 6 ∨ 2 ≤ field bs 0 2 → VCDUHeader.decode bs = none) ∧
    (6 ≤ bs.length → field bs 0 2 = 0 → ∃ h, VCDUHeader.decode bs = some h ∧
      h.version.toNat = 0 ∧ h.scid.toNat = field bs 2 10 ∧ h.vcid.toNat = field bs 12 3 ∧
      h.counter.toNat = field bs 16 16) ∧
    (6 ≤ bs.length → field bs 0 2 = 1 → ∃ h, VCDUHeader.decode bs = some h ∧
      h.version.toNat = 1 ∧ h.scid.toNat = field bs 2 8 ∧ h.vcid.toNat = field bs 10 6 ∧
      h.counter.toNat = field bs 16 24) := by
  match bs with
  | [] | [_] | [_, _] | [_, _, _] | [_, _, _, _] | [_, _, _, _, _] =>
    exact ⟨fun _ => rfl, fun h => by simp at h, fun h => by simp at h⟩
  | b0 :: b1 :: b2 :: b3 :: b4 :: b5 :: rest =>
    have i0 := b0.isLt
    have i1 := b1.isLt
    have i2 := b2.isLt
    have i3 := b3.isLt
    have i4 := b4.isLt
    have i5 := b5.isLt
    rw [vcdu_key _ _ _ _ _ _ _ 0 2 (by omega), vcdu_key _ _ _ _ _ _ _ 2 10 (by omega),
      vcdu_key _ _ _ _ _ _ _ 12 3 (by omega), vcdu_key _ _ _ _ _ _ _ 16 16 (by omega),
      vcdu_key _ _ _ _ _ _ _ 2 8 (by omega), vcdu_key _ _ _ _ _ _ _ 10 6 (by omega),
      vcdu_key _ _ _ _ _ _ _ 16 24 (by omega)]
    simp only [Nat.reduceSub, Nat.reducePow]
    have hv := version_toNat b0
    have v0 : ((b0 >>> 6) &&& 0x3#8 = 0#8) ↔ b0.toNat / 64 = 0 := by
      rw [← hv]; exact ⟨fun h => by rw [h]; rfl, fun h => BitVec.eq_of_toNat_eq h⟩
    have v1 : ((b0 >>> 6) &&& 0x3#8 = 1#8) ↔ b0.toNat / 64 = 1 := by
      rw [← hv]; exact ⟨fun h => by rw [h]; rfl, fun h => BitVec.eq_of_toNat_eq h⟩
    refine ⟨?_, ?_, ?_⟩
    · intro h
      rcases h with h | h
      · simp at h; omega
      · have n0 : ¬ ((b0 >>> 6) &&& 0x3#8 = 0#8) := by rw [v0]; omega
        have n1 : ¬ ((b0 >>> 6) &&& 0x3#8 = 1#8) := by rw [v1]; omega
        simp only [VCDUHeader.decode, n0, n1, if_false]
    · intro _ h
      have n0 : (b0 >>> 6) &&& 0x3#8 = 0#8 := by rw [v0]; omega
      obtain ⟨h1, h2, h3⟩ := decodeV1_fields b0 b1 b2 b3
      refine ⟨_, by simp only [VCDUHeader.decode, n0]; rfl, rfl, ?_, ?_, ?_⟩
      · rw [h1]; omega
      · rw [h2]; omega
      · rw [h3]; omega
    · intro _ h
      have n1 : (b0 >>> 6) &&& 0x3#8 = 1#8 := by rw [v1]; omega
      obtain ⟨h1, h2, h3⟩ := decodeV2_fields b0 b1 b2 b3 b4
      refine ⟨_, by simp only [VCDUHeader.decode, n1]; rfl, rfl, ?_, ?_, ?_⟩
      · rw [h1]; omega
      · rw [h2]; omega
      · rw [h3]; omega

/-- `None` exactly for short buffers and unsupported versions. -/
theorem C33_none_iff (bs : List U8) : VCDUHeader.decode bs = none ↔ bs.length < 6 ∨ 2 ≤ field bs 0 2 := by
  obtain ⟨a, b, c⟩ := C33_fields bs
  refine ⟨fun h => ?_, a⟩
  by_cases hl : bs.length < 6
  · exact Or.inl hl
  · have h4 := field_lt bs 0 2
    have : field bs 0 2 = 0 ∨ field bs 0 2 = 1 ∨ 2 ≤ field bs 0 2 := by omega
    rcases this with h0 | h1 | h2
    · obtain ⟨x, e, _⟩ := b (by omega) h0; rw [h] at e; cases e
    · obtain ⟨x, e, _⟩ := c (by omega) h1; rw [h] at e; cases e
    · exact Or.inr h2

theorem VCDUHeader.ext' {h k : VCDUHeader} (h1 : h.version.toNat = k.version.toNat) (h2 : h.scid.toNat = k.scid.toNat)
    (h3 : h.vcid.toNat = k.vcid.toNat) (h4 : h.counter.toNat = k.counter.toNat) : h = k := by
  obtain ⟨a, b, c, d⟩ := h
  obtain ⟨a', b', c', d'⟩ := k
  simp only at h1 h2 h3 h4
  rw [BitVec.eq_of_toNat_eq h1, BitVec.eq_of_toNat_eq h2, BitVec.eq_of_toNat_eq h3, BitVec.eq_of_toNat_eq h4]

/-- Decoding a serialized in-range AOS header gives it back, whatever the signalling byte and the bytes that follow. -/
theorem C33_aos_roundtrip (h : VCDUHeader) (sig : Nat) (hfit : fits aosWidths [h.version.toNat, h.scid.toNat, h.vcid.toNat, h.counter.toNat, sig])
    (hv : h.version = 1) (bs rest : List U8)
    (hbs : bits bs = writeFields aosWidths [h.version.toNat, h.scid.toNat, h.vcid.toNat, h.counter.toNat, sig]) :
    VCDUHeader.decode (bs ++ rest) = some h := by
  have hl : bs.length = 6 := by
    have := congrArg List.length hbs
    simp [writeFields, aosWidths, natBits_length] at this
    omega
  match bs, hl with
  | [b0, b1, b2, b3, b4, b5], _ =>
    have e := congrArg natOfBits hbs
    simp only [bits6, writeFields, aosWidths, natOfBits_append, natOfBits_natBits, natBits_length, List.length_append,
      List.length_nil, natOfBits_nil, Nat.reduceAdd, Nat.reducePow] at e
    simp only [fits, aosWidths, Nat.reducePow, and_true] at hfit
    obtain ⟨f1, f2, f3, f4, f5⟩ := hfit
    have hv' : h.version.toNat = 1 := by rw [hv]; rfl
    rw [hv', Nat.mod_eq_of_lt f2, Nat.mod_eq_of_lt f3, Nat.mod_eq_of_lt f4, Nat.mod_eq_of_lt f5] at e
    obtain ⟨_, _, c⟩ := C33_fields ([b0, b1, b2, b3, b4, b5] ++ rest)
    simp only [List.cons_append, List.nil_append] at c ⊢
    rw [vcdu_key _ _ _ _ _ _ _ 0 2 (by omega), vcdu_key _ _ _ _ _ _ _ 2 8 (by omega),
      vcdu_key _ _ _ _ _ _ _ 10 6 (by omega), vcdu_key _ _ _ _ _ _ _ 16 24 (by omega)] at c
    simp only [Nat.reduceSub, Nat.reducePow] at c
    rw [e] at c
    clear e hbs
    obtain ⟨k, ek, k1, k2, k3, k4⟩ := c (by simp) (by omega)
    rw [ek]
    congr 1
    exact VCDUHeader.ext' (by omega) (by omega) (by omega) (by omega)

/-- The same for TM headers: the 10-bit spacecraft id, 3-bit virtual channel id and 16-bit counter come back. -/
theorem C33_tm_roundtrip (h : VCDUHeader) (ocf status : Nat)
    (hfit : fits tmWidths [h.version.toNat, h.scid.toNat, h.vcid.toNat, ocf, h.counter.toNat, status])
    (hv : h.version = 0) (bs rest : List U8)
    (hbs : bits bs = writeFields tmWidths [h.version.toNat, h.scid.toNat, h.vcid.toNat, ocf, h.counter.toNat, status]) :
    VCDUHeader.decode (bs ++ rest) = some h := by
  have hl : bs.length = 6 := by
    have := congrArg List.length hbs
    simp [writeFields, tmWidths, natBits_length] at this
    omega
  match bs, hl with
  | [b0, b1, b2, b3, b4, b5], _ =>
    have e := congrArg natOfBits hbs
    simp only [bits6, writeFields, tmWidths, natOfBits_append, natOfBits_natBits, natBits_length, List.length_append,
      List.length_nil, natOfBits_nil, Nat.reduceAdd, Nat.reducePow] at e
    simp only [fits, tmWidths, Nat.reducePow, and_true] at hfit
    obtain ⟨f1, f2, f3, f4, f5, f6⟩ := hfit
    have hv' : h.version.toNat = 0 := by rw [hv]; rfl
    rw [hv', Nat.mod_eq_of_lt f2, Nat.mod_eq_of_lt f3, Nat.mod_eq_of_lt f4, Nat.mod_eq_of_lt f5, Nat.mod_eq_of_lt f6] at e
    obtain ⟨_, c, _⟩ := C33_fields ([b0, b1, b2, b3, b4, b5] ++ rest)
    simp only [List.cons_append, List.nil_append] at c ⊢
    rw [vcdu_key _ _ _ _ _ _ _ 0 2 (by omega), vcdu_key _ _ _ _ _ _ _ 2 10 (by omega),
      vcdu_key _ _ _ _ _ _ _ 12 3 (by omega), vcdu_key _ _ _ _ _ _ _ 16 16 (by omega)] at c
    simp only [Nat.reduceSub, Nat.reducePow] at c
    rw [e] at c
    clear e hbs
    obtain ⟨k, ek, k1, k2, k3, k4⟩ := c (by simp) (by omega)
    rw [ek]
    congr 1
    exact VCDUHeader.ext' (by omega) (by omega) (by omega) (by omega)

/-- `Frame::decode` keeps the data unchanged, beside its header; integrity is not known and nothing is missing. -/
theorem C33_frame (bs : List U8) :
    (Frame.decode bs = none ↔ bs.length < 6 ∨ 2 ≤ field bs 0 2) ∧
    ∀ f, Frame.decode bs = some f → f.data = bs ∧ VCDUHeader.decode bs = some f.header ∧ f.integrity = none ∧ f.missing = 0 ∧
      (f.isFill = true ↔ f.header.vcid.toNat = 63) := by
  have hn := C33_none_iff bs
  unfold Frame.decode
  cases h : VCDUHeader.decode bs with
  | none => exact ⟨by simpa [h] using hn, by simp⟩
  | some hd =>
    refine ⟨by simpa [h] using hn, ?_⟩
    intro f hf
    cases hf
    refine ⟨rfl, rfl, rfl, rfl, ?_⟩
    unfold Frame.isFill VCDUHeader.FILL
    rw [beq_iff_eq, ← BitVec.toNat_inj]
    rfl

/-- Only the first 6 bytes matter. -/
theorem C33_prefix (bs cs : List U8) (hlen : 6 ≤ bs.length) (h : bs.take 6 = cs.take 6) :
    VCDUHeader.decode bs = VCDUHeader.decode cs := by
  have hc : 6 ≤ cs.length := by
    have := congrArg List.length h
    simp at this; omega
  match bs, cs, hlen, hc, h with
  | _ :: _ :: _ :: _ :: _ :: _ :: _, _ :: _ :: _ :: _ :: _ :: _ :: _, _, _, h =>
    simp only [List.take_succ_cons, List.cons.injEq] at h
    obtain ⟨h0, h1, h2, h3, h4, h5, _⟩ := h
    subst h0 h1 h2 h3 h4 h5
    rfl

/-- The header of the unit test: version 2 (value 1), spacecraft 85, channel 33, counter 123456. -/
example : fits aosWidths [1, 85, 33, 123456, 5] ∧
    bits [0x55#8, 0x61#8, 0x01#8, 0xe2#8, 0x40#8, 0x05#8] = writeFields aosWidths [1, 85, 33, 123456, 5] ∧
    VCDUHeader.decode [0x55#8, 0x61#8, 0x01#8, 0xe2#8, 0x40#8, 0x05#8] = some ⟨1, 85, 33, 123456⟩ := by decide +kernel

example : fits tmWidths [0, 700, 5, 1, 0x1234, 0x07ff] ∧
    bits [0x2b#8, 0xcb#8, 0x12#8, 0x34#8, 0x07#8, 0xff#8] = writeFields tmWidths [0, 700, 5, 1, 0x1234, 0x07ff] ∧
    VCDUHeader.decode [0x2b#8, 0xcb#8, 0x12#8, 0x34#8, 0x07#8, 0xff#8] = some ⟨0, 700, 5, 0x1234⟩ := by decide +kernel

/-! ## C34  `missing_frames` -/

/-- The property in full: the number of 24-bit counter values strictly between `last` and `cur`. -/
def C34_full : Prop := ∀ (b : Build) (cur last : U32), cur.toNat < 2 ^ 24 → last.toNat < 2 ^ 24 → cur ≠ last →
    ∃ m, missingFrames b cur last = .ret m ∧ m.toNat = gap (2 ^ 24) cur.toNat last.toNat

/-- It is false: the nominal rollover 16777215 → 0, with nothing missing, panics (or reports 4294967295). -/
theorem C34_violated : ¬ C34_full := by
  intro h
  obtain ⟨m, e, _⟩ := h ⟨true⟩ 0 0xffffff (by decide) (by decide) (by decide)
  have : missingFrames ⟨true⟩ 0 0xffffff = .panic := by decide
  rw [this] at e; cases e

example : missingFrames ⟨false⟩ 0 0xffffff = .ret 0xffffffff := by decide

theorem COUNTER_MAX_toNat : VCDUHeader.COUNTER_MAX.toNat = 16777214 := by decide

/-- What the code computes, for all 2^48 counter pairs and both build profiles: exact without a wrap; one too few across
a wrap; `2^24 - 2` for a repeated counter; and for every wrap from counter `2^24 - 1` a panic (overflow checks) or
`cur - 1` modulo `2^32` (no overflow checks). -/
theorem C34_behaviour (b : Build) (cur last : U32) (hc : cur.toNat < 2 ^ 24) (hl : last.toNat < 2 ^ 24) :
    (last.toNat < cur.toNat →
      ∃ m, missingFrames b cur last = .ret m ∧ m.toNat = gap (2 ^ 24) cur.toNat last.toNat) ∧
    (cur = last → ∃ m, missingFrames b cur last = .ret m ∧ m.toNat = 2 ^ 24 - 2) ∧
    (cur.toNat < last.toNat → last.toNat ≤ 2 ^ 24 - 2 →
      ∃ m, missingFrames b cur last = .ret m ∧ m.toNat + 1 = gap (2 ^ 24) cur.toNat last.toNat) ∧
    (cur.toNat < last.toNat → last.toNat = 2 ^ 24 - 1 →
      missingFrames b cur last = if b.overflowChecks then .panic else .ret (cur - 1)) := by
  have cm := COUNTER_MAX_toNat
  have ne : ∀ {x y : U32}, x.toNat ≠ y.toNat → x ≠ y := fun h e => h (congrArg _ e)
  refine ⟨fun h => ?_, fun h => ?_, fun h h' => ?_, fun h h' => ?_⟩
  · have hg : gap (2 ^ 24) cur.toNat last.toNat = cur.toNat - last.toNat - 1 := by
      unfold gap; rw [show cur.toNat + 2 ^ 24 - last.toNat - 1 = (cur.toNat - last.toNat - 1) + 2 ^ 24 by omega,
        Nat.add_mod_right, Nat.mod_eq_of_lt (by omega)]
    rw [hg]
    unfold missingFrames
    rw [if_neg (ne (by omega))]
    by_cases hm : last = VCDUHeader.COUNTER_MAX
    · have := congrArg BitVec.toNat hm
      rw [cm] at this
      rw [if_pos hm]
      simp only [Outcome.ret_bind]
      rw [if_neg (ne (by simp; omega)), if_neg (by omega)]
      have s1 : b.sub cur last = .ret (cur - last) := by simp [Build.sub]; omega
      have e1 : (cur - last).toNat = cur.toNat - last.toNat := by
        rw [BitVec.toNat_sub_of_le (by simp [BitVec.le_def]; omega)]
      have s2 : b.sub (cur - last) 1#32 = .ret (cur - last - 1#32) := by simp [Build.sub, e1]; omega
      simp only [s1, s2, Outcome.ret_bind]
      refine ⟨_, rfl, ?_⟩
      rw [BitVec.toNat_sub_of_le (by simp [BitVec.le_def, e1]; omega), e1]; rfl
    · rw [if_neg hm]
      have a1 : b.add last 1#32 = .ret (last + 1#32) := by simp [Build.add]; omega
      have e0 : (last + 1#32).toNat = last.toNat + 1 := by rw [BitVec.toNat_add]; simp; omega
      simp only [a1, Outcome.ret_bind]
      by_cases hx : cur = last + 1#32
      · rw [if_pos hx]
        refine ⟨_, rfl, ?_⟩
        rw [hx, e0]; simp
      · have : cur.toNat ≠ last.toNat + 1 := fun e => hx (BitVec.eq_of_toNat_eq (by rw [e0, e]))
        rw [if_neg hx, if_neg (by omega)]
        have s1 : b.sub cur last = .ret (cur - last) := by simp [Build.sub]; omega
        have e1 : (cur - last).toNat = cur.toNat - last.toNat := by
          rw [BitVec.toNat_sub_of_le (by simp [BitVec.le_def]; omega)]
        have s2 : b.sub (cur - last) 1#32 = .ret (cur - last - 1#32) := by simp [Build.sub, e1]; omega
        simp only [s1, s2, Outcome.ret_bind]
        refine ⟨_, rfl, ?_⟩
        rw [BitVec.toNat_sub_of_le (by simp [BitVec.le_def, e1]; omega), e1]; rfl
  · refine ⟨VCDUHeader.COUNTER_MAX, ?_, cm⟩
    unfold missingFrames; rw [if_pos h]
  · have hg : gap (2 ^ 24) cur.toNat last.toNat = cur.toNat + 2 ^ 24 - last.toNat - 1 := by
      unfold gap; rw [Nat.mod_eq_of_lt (by omega)]
    rw [hg]
    unfold missingFrames
    rw [if_neg (ne (by omega))]
    by_cases hm : last = VCDUHeader.COUNTER_MAX
    · have hm' := congrArg BitVec.toNat hm
      rw [cm] at hm'
      rw [if_pos hm]
      simp only [Outcome.ret_bind]
      by_cases h0 : cur = 0#32
      · rw [if_pos h0]
        refine ⟨0, rfl, ?_⟩
        rw [h0, hm']; decide
      · have h0' : cur.toNat ≠ 0 := fun e => h0 (BitVec.eq_of_toNat_eq (by rw [e]; rfl))
        rw [if_neg h0, if_pos (by omega)]
        have s1 : b.sub VCDUHeader.COUNTER_MAX last = .ret (VCDUHeader.COUNTER_MAX - last) := by
          simp [Build.sub, cm]; omega
        have e1 : (VCDUHeader.COUNTER_MAX - last).toNat = 16777214 - last.toNat := by
          rw [BitVec.toNat_sub_of_le (by simp [BitVec.le_def, cm]; omega), cm]
        have s2 : b.add (VCDUHeader.COUNTER_MAX - last) cur = .ret (VCDUHeader.COUNTER_MAX - last + cur) := by
          simp [Build.add, e1]; omega
        simp only [s1, s2, Outcome.ret_bind]
        refine ⟨_, rfl, ?_⟩
        rw [BitVec.toNat_add, e1, Nat.mod_eq_of_lt (by omega)]; omega
    · rw [if_neg hm]
      have a1 : b.add last 1#32 = .ret (last + 1#32) := by simp [Build.add]; omega
      have e0 : (last + 1#32).toNat = last.toNat + 1 := by rw [BitVec.toNat_add]; simp; omega
      simp only [a1, Outcome.ret_bind]
      rw [if_neg (ne (by rw [e0]; omega)), if_pos (by omega)]
      have s1 : b.sub VCDUHeader.COUNTER_MAX last = .ret (VCDUHeader.COUNTER_MAX - last) := by
        simp [Build.sub, cm]; omega
      have e1 : (VCDUHeader.COUNTER_MAX - last).toNat = 16777214 - last.toNat := by
        rw [BitVec.toNat_sub_of_le (by simp [BitVec.le_def, cm]; omega), cm]
      have s2 : b.add (VCDUHeader.COUNTER_MAX - last) cur = .ret (VCDUHeader.COUNTER_MAX - last + cur) := by
        simp [Build.add, e1]; omega
      simp only [s1, s2, Outcome.ret_bind]
      refine ⟨_, rfl, ?_⟩
      rw [BitVec.toNat_add, e1, Nat.mod_eq_of_lt (by omega)]; omega
  · have hlast : last = 0xffffff#32 := BitVec.eq_of_toNat_eq (by rw [h']; rfl)
    subst hlast
    unfold missingFrames
    rw [if_neg (ne (by omega)), if_neg (by decide)]
    have a1 : b.add 0xffffff#32 1#32 = .ret 0x1000000#32 := by simp [Build.add]
    simp only [a1, Outcome.ret_bind]
    rw [if_neg (ne (by simp; omega)), if_pos (by omega)]
    cases hb : b.overflowChecks
    · have s1 : b.sub VCDUHeader.COUNTER_MAX 0xffffff#32 = .ret (0xffffffff#32) := by
        simp [Build.sub, hb]; decide
      have s2 : b.add 0xffffffff#32 cur = .ret (cur - 1#32) := by
        simp [Build.add, hb]
        rw [BitVec.add_comm, BitVec.sub_eq_add_neg, show -1#32 = 4294967295#32 by decide]
      simp [s1, s2]
    · have s1 : b.sub VCDUHeader.COUNTER_MAX 0xffffff#32 = .panic := by
        simp [Build.sub, hb]; decide
      simp [s1]

/-- The strongest version of the gap property that holds: exact whenever the counter did not wrap in between. -/
theorem C34_partial (b : Build) (cur last : U32) (hc : cur.toNat < 2 ^ 24) (h : last.toNat < cur.toNat) :
    ∃ m, missingFrames b cur last = .ret m ∧ m.toNat = gap (2 ^ 24) cur.toNat last.toNat :=
  (C34_behaviour b cur last hc (by omega)).1 h

/-- What the code computes for arguments of any size. -/
theorem C34_any (b : Build) (cur last : U32) :
    (cur = last → missingFrames b cur last = .ret 16777214#32) ∧
    (last.toNat < cur.toNat → missingFrames b cur last = .ret (BitVec.ofNat 32 (cur.toNat - last.toNat - 1))) ∧
    (cur.toNat < last.toNat → last.toNat ≤ 16777214 → missingFrames b cur last = .ret (BitVec.ofNat 32 (16777214 - last.toNat + cur.toNat))) ∧
    (cur.toNat < last.toNat → 16777214 < last.toNat → missingFrames b cur last =
      if b.overflowChecks then .panic
      else if last.toNat = 2 ^ 32 - 1 ∧ cur.toNat = 0 then .ret 0#32 else .ret (BitVec.ofInt 32 (16777214 - (last.toNat : Int) + cur.toNat))) := by
  have cm := COUNTER_MAX_toNat
  have ne : ∀ {x y : U32}, x.toNat ≠ y.toNat → x ≠ y := fun h e => h (congrArg _ e)
  have hc := cur.isLt
  have hl := last.isLt
  refine ⟨fun h => ?_, fun h => ?_, fun h h' => ?_, fun h h' => ?_⟩
  · unfold missingFrames; rw [if_pos h]; rfl
  · have s1 : b.sub cur last = .ret (cur - last) := by simp [Build.sub]; omega
    have e1 : (cur - last).toNat = cur.toNat - last.toNat := by rw [BitVec.toNat_sub_of_le (by simp [BitVec.le_def]; omega)]
    have s2 : b.sub (cur - last) 1#32 = .ret (BitVec.ofNat 32 (cur.toNat - last.toNat - 1)) := by
      have : b.sub (cur - last) 1#32 = .ret (cur - last - 1#32) := by simp [Build.sub, e1]; omega
      rw [this]
      congr 1
      apply BitVec.eq_of_toNat_eq
      rw [BitVec.toNat_sub, e1]; simp only [BitVec.toNat_ofNat]; omega
    unfold missingFrames
    rw [if_neg (ne (by omega))]
    by_cases hm : last = VCDUHeader.COUNTER_MAX
    · rw [if_pos hm]
      simp only [Outcome.ret_bind]
      rw [if_neg (ne (by simp; omega)), if_neg (by omega), s1, Outcome.ret_bind, s2]
    · rw [if_neg hm]
      have a1 : b.add last 1#32 = .ret (last + 1#32) := by simp [Build.add]; omega
      have e0 : (last + 1#32).toNat = last.toNat + 1 := by rw [BitVec.toNat_add]; simp; omega
      simp only [a1, Outcome.ret_bind]
      by_cases hx : cur = last + 1#32
      · have := congrArg BitVec.toNat hx
        rw [if_pos hx]
        congr 1
        apply BitVec.eq_of_toNat_eq
        simp only [BitVec.toNat_ofNat]; omega
      · rw [if_neg hx, if_neg (by omega), s1, Outcome.ret_bind, s2]
  · have s1 : b.sub VCDUHeader.COUNTER_MAX last = .ret (VCDUHeader.COUNTER_MAX - last) := by simp [Build.sub, cm]; omega
    have e1 : (VCDUHeader.COUNTER_MAX - last).toNat = 16777214 - last.toNat := by rw [BitVec.toNat_sub_of_le (by simp [BitVec.le_def, cm]; omega), cm]
    have s2 : b.add (VCDUHeader.COUNTER_MAX - last) cur = .ret (BitVec.ofNat 32 (16777214 - last.toNat + cur.toNat)) := by
      have : b.add (VCDUHeader.COUNTER_MAX - last) cur = .ret (VCDUHeader.COUNTER_MAX - last + cur) := by simp [Build.add, e1]; omega
      rw [this]
      exact congrArg Outcome.ret (BitVec.eq_of_toNat_eq (by rw [BitVec.toNat_add, e1, BitVec.toNat_ofNat]))
    unfold missingFrames
    rw [if_neg (ne (by omega))]
    by_cases hm : last = VCDUHeader.COUNTER_MAX
    · have hm' := congrArg BitVec.toNat hm
      rw [if_pos hm]
      simp only [Outcome.ret_bind]
      by_cases h0 : cur = 0#32
      · have h0' := congrArg BitVec.toNat h0
        rw [if_pos h0]
        rw [cm] at hm'
        rw [BitVec.toNat_ofNat, Nat.zero_mod] at h0'
        exact congrArg Outcome.ret (BitVec.eq_of_toNat_eq (by rw [BitVec.toNat_ofNat, BitVec.toNat_ofNat, hm', h0']))
      · rw [if_neg h0, if_pos (by omega), s1, Outcome.ret_bind, s2]
    · rw [if_neg hm]
      have a1 : b.add last 1#32 = .ret (last + 1#32) := by simp [Build.add]; omega
      have e0 : (last + 1#32).toNat = last.toNat + 1 := by rw [BitVec.toNat_add]; simp; omega
      simp only [a1, Outcome.ret_bind]
      rw [if_neg (ne (by omega)), if_pos (by omega), s1, Outcome.ret_bind, s2]
  · have hm : last ≠ VCDUHeader.COUNTER_MAX := ne (by omega)
    unfold missingFrames
    rw [if_neg (ne (by omega)), if_neg hm]
    obtain ⟨b⟩ := b
    cases b with
    | true =>
      rw [if_pos rfl]
      by_cases hf : last.toNat = 2 ^ 32 - 1
      · have a1 : Build.add ⟨true⟩ last 1#32 = .panic := by simp [Build.add]; omega
        rw [a1]; rfl
      · have a1 : Build.add ⟨true⟩ last 1#32 = .ret (last + 1#32) := by simp [Build.add]; omega
        have e0 : (last + 1#32).toNat = last.toNat + 1 := by rw [BitVec.toNat_add]; simp; omega
        have s1 : Build.sub ⟨true⟩ VCDUHeader.COUNTER_MAX last = .panic := by simp [Build.sub, cm]; omega
        rw [a1]
        simp only [Outcome.ret_bind]
        rw [if_neg (ne (by omega)), if_pos (by omega), s1]; rfl
    | false =>
      have e0 : (last + 1#32).toNat = (last.toNat + 1) % 2 ^ 32 := by rw [BitVec.toNat_add]; simp
      simp only [Build.add, Build.sub, Bool.false_and, Bool.false_eq_true, if_false, Outcome.ret_bind]
      by_cases hz : last.toNat = 2 ^ 32 - 1 ∧ cur.toNat = 0
      · rw [if_pos hz, if_pos (BitVec.eq_of_toNat_eq (by omega))]
      · rw [if_neg hz, if_neg (ne (by omega)), if_pos (by omega)]
        congr 1
        apply BitVec.eq_of_toNat_eq
        rw [BitVec.toNat_add, BitVec.toNat_sub, BitVec.toNat_ofInt, cm]
        omega

example : missingFrames ⟨true⟩ 5 0x1000000 = .panic ∧ missingFrames ⟨false⟩ 0 0xffffffff = .ret 0 := by decide

example : missingFrames ⟨true⟩ 1000 990 = .ret 9 ∧ gap (2 ^ 24) 1000 990 = 9 := by decide
/-- Ten frames missing across a wrap: one too few is reported. -/
example : missingFrames ⟨true⟩ 5 16777210 = .ret 9 ∧ gap (2 ^ 24) 5 16777210 = 10 := by decide

/-- Every decoded counter is in the range of C34. -/
theorem decode_counter_lt (bs : List U8) (h : VCDUHeader) (e : VCDUHeader.decode bs = some h) : h.counter.toNat < 2 ^ 24 := by
  have hn : ¬ (bs.length < 6 ∨ 2 ≤ field bs 0 2) := by rw [← C33_none_iff, e]; simp
  obtain ⟨_, b, c⟩ := C33_fields bs
  have : field bs 0 2 = 0 ∨ field bs 0 2 = 1 := by omega
  rcases this with h0 | h1
  · obtain ⟨x, e', _, _, _, h⟩ := b (by omega) h0
    rw [e] at e'; injection e' with e'; subst e'
    have := field_lt bs 16 16
    omega
  · obtain ⟨x, e', _, _, _, h⟩ := c (by omega) h1
    rw [e] at e'; injection e' with e'; subst e'
    have := field_lt bs 16 24
    omega

/-! ## C35  `frame_decoder` -/

/-- The header of the last CADU of virtual channel `v` in a list of CADUs. -/
def lastOfChannel (cadus : List Block) (v : U16) : Option VCDUHeader :=
  ((cadus.filterMap (fun c => VCDUHeader.decode c.data)).filter (fun h => h.vcid == v)).getLast?

/-- `f` is the frame to be produced for CADU `c` when `before` are the CADUs before it. -/
def FrameOf (b : Build) (before : List Block) (c : Block) (f : Frame) : Prop :=
  VCDUHeader.decode c.data = some f.header ∧ f.data = c.data ∧ f.integrity = none ∧
    match lastOfChannel before f.header.vcid with
    | none => f.missing = 0
    | some p => if f.header.vcid = 63 then f.missing = 0 else missingFrames b f.header.counter p.counter = .ret f.missing

theorem lastOfChannel_snoc (before : List Block) (c : Block) (h : VCDUHeader) (e : VCDUHeader.decode c.data = some h) (v : U16) :
    lastOfChannel (before ++ [c]) v = if h.vcid = v then some h else lastOfChannel before v := by
  unfold lastOfChannel
  simp only [List.filterMap_append, List.filterMap_cons, e, List.filterMap_nil, List.filter_append, List.filter_cons,
    List.filter_nil]
  by_cases hv : h.vcid = v
  · simp [hv]
  · simp [hv]

theorem C35_go (b : Build) (cadus : List Block) : ∀ (before : List Block) (m : HMap U16 U32),
    (∀ v, m.get? v = (lastOfChannel before v).map (·.counter)) →
    ∃ frames e, Collects (FrameDecoder.next b) ⟨m, cadus⟩ frames e ∧
      frames.length ≤ cadus.length ∧
      (∀ i c f, cadus[i]? = some c → frames[i]? = some f → FrameOf b (before ++ cadus.take i) c f) ∧
      (match e with
        | some s => (frames.length = cadus.length ∧ s.cadus = []) ∨
            ∃ c, cadus[frames.length]? = some c ∧ VCDUHeader.decode c.data = none ∧ s.cadus = cadus.drop (frames.length + 1)
        | none => ∃ c h p, cadus[frames.length]? = some c ∧ VCDUHeader.decode c.data = some h ∧ h.vcid ≠ 63 ∧
            lastOfChannel (before ++ cadus.take frames.length) h.vcid = some p ∧
            missingFrames b h.counter p.counter = .panic) := by
  induction cadus with
  | nil =>
    intro before m hm
    exact ⟨[], some ⟨m, []⟩, .done rfl, by simp, by simp, Or.inl ⟨rfl, rfl⟩⟩
  | cons c cadus ih =>
    intro before m hm
    cases hd : VCDUHeader.decode c.data with
    | none =>
      refine ⟨[], some ⟨m, cadus⟩, .done (by simp [FrameDecoder.next, hd]), by simp, by simp, Or.inr ⟨c, rfl, hd, rfl⟩⟩
    | some h =>
      have step : ∀ ms, (match lastOfChannel before h.vcid with
          | none => ms = 0#32
          | some p => if h.vcid = 63 then ms = 0#32 else missingFrames b h.counter p.counter = .ret ms) →
          FrameDecoder.next b ⟨m, c :: cadus⟩ = .ret (some ⟨h, ms, none, c.data⟩, ⟨m.insert h.vcid h.counter, cadus⟩) := by
        intro ms hms
        simp only [FrameDecoder.next, hd, hm]
        cases hp : lastOfChannel before h.vcid with
        | none => rw [hp] at hms; simp at hms; subst hms; simp
        | some p =>
          rw [hp] at hms
          by_cases h63 : h.vcid = 63
          · have n : h.vcid = VCDUHeader.FILL := h63
            simp only [if_pos h63] at hms; subst hms; simp [n]
          · have n : h.vcid ≠ VCDUHeader.FILL := h63
            simp only [if_neg h63] at hms
            simp [n, hms]
      by_cases hpan : ∃ p, lastOfChannel before h.vcid = some p ∧ h.vcid ≠ 63 ∧ missingFrames b h.counter p.counter = .panic
      · obtain ⟨p, hp, h63, hmf⟩ := hpan
        refine ⟨[], none, .panicked ?_, by simp, by simp, ⟨c, h, p, rfl, hd, h63, by simpa using hp, hmf⟩⟩
        have n : h.vcid ≠ VCDUHeader.FILL := h63
        simp [FrameDecoder.next, hd, hm, hp, n, hmf]
      · have hex : ∃ ms, (match lastOfChannel before h.vcid with
          | none => ms = 0#32
          | some p => if h.vcid = 63 then ms = 0#32 else missingFrames b h.counter p.counter = .ret ms) := by
          cases hp : lastOfChannel before h.vcid with
          | none => exact ⟨_, rfl⟩
          | some p =>
            by_cases h63 : h.vcid = 63
            · exact ⟨0, by simp only [if_pos h63]; rfl⟩
            · cases hmf : missingFrames b h.counter p.counter with
              | ret ms => exact ⟨ms, by simp only [if_neg h63]; exact hmf⟩
              | panic => exact absurd ⟨p, hp, h63, hmf⟩ hpan
        obtain ⟨ms, hms⟩ := hex
        obtain ⟨frames, e, hc, hlen, hfr, hend⟩ := ih (before ++ [c]) (m.insert h.vcid h.counter) (by
          intro v
          rw [HMap.get?_insert, lastOfChannel_snoc _ _ _ hd]
          by_cases hv : h.vcid = v
          · simp [hv]
          · simp [hv, hm])
        refine ⟨_ :: frames, e, .step (step ms hms) hc, by simpa using hlen, ?_, ?_⟩
        · intro i c' f hi hf
          cases i with
          | zero =>
            simp only [List.getElem?_cons_zero, Option.some.injEq] at hi hf
            subst hi hf
            refine ⟨hd, rfl, rfl, ?_⟩
            simpa using hms
          | succ i =>
            simp only [List.getElem?_cons_succ] at hi hf
            have := hfr i c' f hi hf
            simpa using this
        · cases e with
          | some s =>
            rcases hend with ⟨h1, h2⟩ | ⟨c', h1, h2, h3⟩
            · exact Or.inl ⟨by simp [h1], h2⟩
            · exact Or.inr ⟨c', by simpa using h1, h2, by simpa using h3⟩
          | none =>
            obtain ⟨c', h', p, h1, h2, h3, h4, h5⟩ := hend
            exact ⟨c', h', p, by simpa using h1, h2, h3, by simpa using h4, h5⟩

/-- Iterating `frame_decoder` over any CADU list: frame `i` is the frame of CADU `i` (`FrameOf`: its data, its decoded
header, no integrity, and the gap to the previous CADU of the same channel); the iteration ends after the last CADU, or
at the first CADU whose header does not decode; or it panics at a CADU for which `missing_frames` panics. -/
theorem C35_frames (b : Build) (cadus : List Block) :
    ∃ frames e, Collects (FrameDecoder.next b) (FrameDecoder.new cadus) frames e ∧
      frames.length ≤ cadus.length ∧
      (∀ i c f, cadus[i]? = some c → frames[i]? = some f → FrameOf b (cadus.take i) c f) ∧
      (match e with
        | some s => (frames.length = cadus.length ∧ s.cadus = []) ∨
            ∃ c, cadus[frames.length]? = some c ∧ VCDUHeader.decode c.data = none ∧ s.cadus = cadus.drop (frames.length + 1)
        | none => ∃ c h p, cadus[frames.length]? = some c ∧ VCDUHeader.decode c.data = some h ∧ h.vcid ≠ 63 ∧
            lastOfChannel (cadus.take frames.length) h.vcid = some p ∧
            missingFrames b h.counter p.counter = .panic) := by
  exact C35_go b cadus [] [] (by intro v; rfl)

/-- Frames of other channels have no influence: the frame of a CADU is determined by the CADU and the earlier CADUs of its
own channel. -/
theorem C35_independent (b : Build) (before before' : List Block) (c : Block) (f f' : Frame)
    (hb : ∀ h, VCDUHeader.decode c.data = some h → lastOfChannel before h.vcid = lastOfChannel before' h.vcid)
    (h : FrameOf b before c f) (h' : FrameOf b before' c f') : f = f' := by
  obtain ⟨a1, a2, a3, a4⟩ := h
  obtain ⟨b1, b2, b3, b4⟩ := h'
  have hh : f.header = f'.header := by rw [a1] at b1; exact Option.some.inj b1
  have hm : f.missing = f'.missing := by
    rw [hb _ a1, hh] at a4
    cases hp : lastOfChannel before' f'.header.vcid with
    | none => rw [hp] at a4 b4; exact a4.trans b4.symm
    | some p =>
      rw [hp] at a4 b4
      by_cases h63 : f'.header.vcid = 63
      · simp only [if_pos h63] at a4 b4; exact a4.trans b4.symm
      · simp only [if_neg h63] at a4 b4
        rw [a4] at b4; exact Outcome.ret.inj b4
  cases f; cases f'
  simp_all

/-- The only possible panic is the counter wrap from `2^24 - 1` with overflow checks enabled. -/
theorem C35_panic (b : Build) (cadus : List Block) (frames : List Frame)
    (hc : Collects (FrameDecoder.next b) (FrameDecoder.new cadus) frames none) :
    b.overflowChecks = true ∧ ∃ c h p, cadus[frames.length]? = some c ∧ VCDUHeader.decode c.data = some h ∧
      lastOfChannel (cadus.take frames.length) h.vcid = some p ∧ p.counter.toNat = 2 ^ 24 - 1 ∧
      h.counter.toNat < 2 ^ 24 - 1 ∧ h.vcid ≠ 63 := by
  obtain ⟨frames', e, hc', _, _, hend⟩ := C35_frames b cadus
  obtain ⟨rfl, rfl⟩ := hc.unique hc'
  obtain ⟨c, h, p, h1, h2, h63, h4, h5⟩ := hend
  have lh := decode_counter_lt _ _ h2
  have lp : p.counter.toNat < 2 ^ 24 := by
    unfold lastOfChannel at h4
    have := List.mem_of_getLast? h4
    simp only [List.mem_filter, List.mem_filterMap] at this
    obtain ⟨⟨x, _, hx⟩, _⟩ := this
    exact decode_counter_lt _ _ hx
  obtain ⟨g1, g2, g3, g4⟩ := C34_behaviour b h.counter p.counter lh lp
  have t : p.counter.toNat < h.counter.toNat ∨ h.counter = p.counter ∨ h.counter.toNat < p.counter.toNat := by
    rcases Nat.lt_trichotomy p.counter.toNat h.counter.toNat with t | t | t
    · exact Or.inl t
    · exact Or.inr (Or.inl (BitVec.eq_of_toNat_eq t.symm))
    · exact Or.inr (Or.inr t)
  rcases t with t | t | t
  · obtain ⟨m, hm, _⟩ := g1 t; rw [h5] at hm; cases hm
  · obtain ⟨m, hm, _⟩ := g2 t; rw [h5] at hm; cases hm
  · by_cases h16 : p.counter.toNat ≤ 2 ^ 24 - 2
    · obtain ⟨m, hm, _⟩ := g3 t h16; rw [h5] at hm; cases hm
    · have := g4 t (by omega)
      rw [h5] at this
      cases hb : b.overflowChecks
      · simp [hb] at this
      · exact ⟨rfl, c, h, p, h1, h2, h4, by omega, by omega, h63⟩

/-- Without wraps and repeats, `missing` is the true number of skipped counters since the previous frame of the channel. -/
theorem C35_missing_exact (b : Build) (before : List Block) (c : Block) (f : Frame) (h : FrameOf b before c f)
    (p : VCDUHeader) (hp : lastOfChannel before f.header.vcid = some p) (hf : f.header.vcid ≠ 63)
    (hlt : p.counter.toNat < f.header.counter.toNat) :
    f.missing.toNat = gap (2 ^ 24) f.header.counter.toNat p.counter.toNat := by
  obtain ⟨a1, _, _, a4⟩ := h
  rw [hp] at a4
  simp only [hf, if_false] at a4
  obtain ⟨m, hm, e⟩ := C34_partial b _ _ (decode_counter_lt _ _ a1) hlt
  rw [a4] at hm; cases hm; exact e

/-- Two interleaved channels, one with a gap, and a fill frame; then an undecodable header. -/
example :
    let blk (d : List U8) : Block := ⟨0, ⟨0, 0⟩, d⟩
    let cadus := [blk [0x55, 0x61, 0, 0, 7, 0], blk [0x55, 0x62, 0, 0, 9, 0], blk [0x55, 0x61, 0, 0, 10, 0],
      blk [0x55, 0x7f, 0, 0, 1, 0], blk [0x55, 0x7f, 0, 0, 9, 0], blk [0xff, 0, 0, 0, 0, 0], blk [0x55, 0x62, 0, 0, 9, 0]]
    ∃ frames s, Collects (FrameDecoder.next ⟨true⟩) (FrameDecoder.new cadus) frames (some s) ∧
      frames.map (·.missing) = [0, 0, 2, 0, 0] := by
  refine ⟨_, _, .step rfl (.step rfl (.step rfl (.step rfl (.step rfl (.done rfl))))), ?_⟩
  decide +kernel

/-! ## C36  MPDU access -/

/-- `Frame::mpdu` for every frame and configuration. -/
theorem C36_mpdu (f : Frame) (izone trailer : Nat) :
    (f.data.length < 6 + izone + trailer → f.mpdu izone trailer = .panic) ∧
    (6 + izone + trailer ≤ f.data.length → f.data.length < 6 + izone + trailer + 2 →
      f.mpdu izone trailer = .ret none) ∧
    (6 + izone + trailer + 2 ≤ f.data.length → ∃ m p,
      f.mpdu izone trailer = .ret (some m) ∧ m.payload = .ret p ∧
      m.headerOffset = field (f.data.drop (6 + izone)) 5 11 ∧
      p.length = f.data.length - (6 + izone + 2) - trailer ∧
      f.data = f.data.take (6 + izone + 2) ++ p ++ f.data.drop (f.data.length - trailer)) := by
  have hmp : f.mpdu izone trailer = if f.data.length < trailer then .panic
      else if f.data.length - trailer < 6 + izone then .panic
      else .ret (MPDU.decode ((f.data.take (f.data.length - trailer)).drop (6 + izone))) := rfl
  rw [hmp]
  refine ⟨fun h => ?_, fun h1 h2 => ?_, fun h => ?_⟩
  · by_cases ht : f.data.length < trailer
    · rw [if_pos ht]
    · rw [if_neg ht, if_pos (by omega)]
  · rw [if_neg (by omega), if_neg (by omega)]
    have hl : ((f.data.take (f.data.length - trailer)).drop (6 + izone)).length < 2 := by simp; omega
    match (f.data.take (f.data.length - trailer)).drop (6 + izone), hl with
    | [], _ => rfl
    | [_], _ => rfl
  · rw [if_neg (by omega), if_neg (by omega)]
    have hl : 2 ≤ ((f.data.take (f.data.length - trailer)).drop (6 + izone)).length := by simp; omega
    have hx : (f.data.take (f.data.length - trailer)).drop (6 + izone) =
        (f.data.drop (6 + izone)).take (f.data.length - trailer - (6 + izone)) := by rw [List.drop_take]
    have hfield : field (f.data.drop (6 + izone)) 5 11 =
        field ((f.data.take (f.data.length - trailer)).drop (6 + izone)) 5 11 := by
      rw [hx]; exact (field_take _ _ _ _ (by omega)).symm
    rw [hfield]
    generalize hd : (f.data.take (f.data.length - trailer)).drop (6 + izone) = d at hl
    match d, hl with
    | d0 :: d1 :: ds, _ =>
      refine ⟨_, ds, rfl, by simp [MPDU.payload], ?_, ?_, ?_⟩
      · have i0 := d0.isLt
        have i1 := d1.isLt
        rw [← field_take _ 2 5 11 (by omega)]
        simp only [List.take_succ_cons, List.take_zero]
        rw [field_eq _ _ _ (by simp)]
        simp only [natOfBits_bits_cons, bits_nil, natOfBits_nil, List.length_cons, List.length_nil, MPDU.headerOffset,
          BitVec.toNat_and, be16_toNat, BitVec.toNat_ofNat, Nat.reduceMod, Nat.reducePow]
        rw [and_mask _ 11 2047 rfl]
        simp only [Nat.reduceMul, Nat.reduceAdd, Nat.reduceSub, Nat.reducePow, Nat.div_one, Nat.mul_one, Nat.add_zero]
      · have := congrArg List.length hd
        simp at this
        omega
      · have e1 : f.data.take (f.data.length - trailer) = f.data.take (6 + izone) ++ (d0 :: d1 :: ds) := by
          rw [← hd]
          conv => lhs; rw [← List.take_append_drop (6 + izone) (f.data.take (f.data.length - trailer))]
          rw [List.take_take, Nat.min_eq_left (by omega)]
        have e2 : f.data.take (6 + izone + 2) = f.data.take (6 + izone) ++ [d0, d1] := by
          have : f.data.take (6 + izone + 2) = (f.data.take (f.data.length - trailer)).take (6 + izone + 2) := by
            rw [List.take_take, Nat.min_eq_left (by omega)]
          rw [this, e1, List.take_append, List.take_of_length_le (by simp; omega)]
          congr 1
          simp only [List.length_take]
          rw [show 6 + izone + 2 - min (6 + izone) f.data.length = 2 by omega]
          rfl
        conv => lhs; rw [← List.take_append_drop (f.data.length - trailer) f.data]
        rw [e1, e2]
        simp

/-- The fill and no-header pointer values. -/
theorem C36_flags (m : MPDU) : (m.isFill = true ↔ m.headerOffset = 0x7fe) ∧ (m.hasHeader = false ↔ m.headerOffset = 0x7ff) := by
  have t : ∀ (x y : U16), x = y ↔ x.toNat = y.toNat := fun x y => ⟨congrArg _, BitVec.eq_of_toNat_eq⟩
  simp [MPDU.isFill, MPDU.hasHeader, MPDU.headerOffset, MPDU.FILL, MPDU.NO_HEADER, t]

example : (Frame.mk ⟨1, 85, 33, 0⟩ 0 none [0x55, 0x61, 0, 0, 7, 0, 0xaa, 0x00, 0x03, 1, 2, 3, 4, 0xbb]).mpdu 1 1
    = .ret (some ⟨3, [0x00, 0x03, 1, 2, 3, 4]⟩) := by decide +kernel

end Ccsds
