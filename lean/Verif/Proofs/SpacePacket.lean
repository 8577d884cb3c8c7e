import Verif.Proofs.Bits
import Verif.Spec.SpacePacket
import Verif.Model.SpacePacket
/-! Helper lemmas about the space packet model. -/
namespace Ccsds
open Spec

theorem be16_toNat (a b : U8) : (be16 a b).toNat = a.toNat * 256 + b.toNat := by
  unfold be16
  have := a.isLt
  have := b.isLt
  rw [BitVec.toNat_append, ← Nat.shiftLeft_add_eq_or_of_lt b.isLt, Nat.shiftLeft_eq]

theorem and_mask (x : Nat) (w : Nat) (m : Nat) (h : m = 2 ^ w - 1) : x &&& m = x % 2 ^ w := by
  rw [h, Nat.and_two_pow_sub_one_eq_mod]

theorem bits6 (b0 b1 b2 b3 b4 b5 : U8) : natOfBits (bits [b0, b1, b2, b3, b4, b5]) =
    b0.toNat * 1099511627776 + b1.toNat * 4294967296 + b2.toNat * 16777216 + b3.toNat * 65536 + b4.toNat * 256 + b5.toNat := by
  simp only [natOfBits_bits_cons, List.length_cons, List.length_nil, bits_nil, natOfBits_nil]
  omega

/-- The list of header fields as numbers. -/
def PrimaryHeader.nums (h : PrimaryHeader) : List Nat :=
  [h.version.toNat, h.typeFlag.toNat, h.hasSecondaryHeader.toNat, h.apid.toNat, h.sequenceFlags.toNat,
    h.sequenceId.toNat, h.lenMinus1.toNat]

theorem PrimaryHeader.nums_inj {h k : PrimaryHeader} (e : h.nums = k.nums) : h = k := by
  obtain ⟨ver, tf, sh, ap, fl, sq, ln⟩ := h
  obtain ⟨ver', tf', sh', ap', fl', sq', ln'⟩ := k
  simp only [nums, List.cons.injEq, and_true] at e
  have hb : ∀ a b : Bool, a.toNat = b.toNat → a = b := by decide
  obtain ⟨e1, e2, e3, e4, e5, e6, e7⟩ := e
  rw [BitVec.eq_of_toNat_eq e1, BitVec.eq_of_toNat_eq e2, hb _ _ e3, BitVec.eq_of_toNat_eq e4,
    BitVec.eq_of_toNat_eq e5, BitVec.eq_of_toNat_eq e6, BitVec.eq_of_toNat_eq e7]

theorem decode_eq6 (b0 b1 b2 b3 b4 b5 : U8) (rest : List U8) :
    ∃ h, PrimaryHeader.decode (b0 :: b1 :: b2 :: b3 :: b4 :: b5 :: rest) = .ok h ∧
      h.version.toNat = b0.toNat / 32 ∧
      h.typeFlag.toNat = b0.toNat / 16 % 2 ∧
      h.hasSecondaryHeader.toNat = b0.toNat / 8 % 2 ∧
      h.apid.toNat = b0.toNat % 8 * 256 + b1.toNat ∧
      h.sequenceFlags.toNat = b2.toNat / 64 ∧
      h.sequenceId.toNat = b2.toNat % 64 * 256 + b3.toNat ∧
      h.lenMinus1.toNat = b4.toNat * 256 + b5.toNat := by
  refine ⟨_, rfl, ?_⟩
  have h0 := b0.isLt
  have h1 := b1.isLt
  have h2 := b2.isLt
  have h3 := b3.isLt
  simp only [BitVec.toNat_setWidth, BitVec.toNat_and, BitVec.toNat_ushiftRight, be16_toNat, BitVec.toNat_ofNat,
    Nat.shiftRight_eq_div_pow, Nat.reduceMod, Nat.reducePow]
  rw [and_mask _ 3 7 rfl, and_mask _ 1 1 rfl, and_mask _ 11 2047 rfl, and_mask _ 2 3 rfl, and_mask _ 14 16383 rfl]
  refine ⟨by omega, by omega, ?_, by omega, by omega, by omega, trivial⟩
  have : (be16 b0 b1 >>> 11 &&& 0x1#16) = BitVec.ofNat 16 (b0.toNat / 8 % 2) := by
    apply BitVec.eq_of_toNat_eq
    simp only [BitVec.toNat_and, BitVec.toNat_ushiftRight, be16_toNat, BitVec.toNat_ofNat,
      Nat.shiftRight_eq_div_pow, Nat.reduceMod, Nat.reducePow]
    rw [and_mask _ 1 1 rfl]; omega
  rw [this]
  have : b0.toNat / 8 % 2 = 0 ∨ b0.toNat / 8 % 2 = 1 := by omega
  rcases this with h | h <;> rw [h] <;> rfl

end Ccsds
