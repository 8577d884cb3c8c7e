import Verif.Proofs.Bits
import Verif.Spec.Time
import Verif.Model.Timecode
/-! Helper lemmas about time codes. -/
namespace Ccsds
open Spec Timecode

theorem beNat_foldl (bs : List U8) (n : Nat) :
    bs.foldl (fun n b => n * 256 + b.toNat) n = n * 256 ^ bs.length + beNat bs := by
  induction bs generalizing n with
  | nil => simp [beNat]
  | cons b bs ih =>
    simp only [List.foldl_cons, beNat, List.length_cons]
    rw [ih, ih, Nat.pow_succ, Nat.add_mul]
    simp only [Nat.zero_mul, Nat.zero_add]
    rw [Nat.mul_assoc, Nat.mul_comm 256, Nat.add_assoc]

theorem beNat_cons (b : U8) (bs : List U8) : beNat (b :: bs) = b.toNat * 256 ^ bs.length + beNat bs := by
  have := beNat_foldl bs b.toNat
  simpa [beNat] using this

theorem beNat_eq (bs : List U8) : beNat bs = natOfBits (bits bs) := by
  induction bs with
  | nil => rfl
  | cons b bs ih =>
    rw [beNat_cons, natOfBits_bits_cons, ih, show (256 : Nat) = 2 ^ 8 from rfl, ← Nat.pow_mul]

theorem beNat_zeros (k : Nat) (bs : List U8) : beNat (List.replicate k 0 ++ bs) = beNat bs := by
  induction k with
  | zero => simp
  | succ k ih => rw [List.replicate_succ, List.cons_append, beNat_cons, ih]; simp

theorem beNat_lt (bs : List U8) : beNat bs < 256 ^ bs.length := by
  rw [beNat_eq, show (256 : Nat) = 2 ^ 8 from rfl, ← Nat.pow_mul]
  have := natOfBits_lt (bits bs)
  rwa [bits_length] at this

theorem beNat_lt_of_le (bs : List U8) (n : Nat) (h : bs.length ≤ n) : beNat bs < 256 ^ n :=
  Nat.lt_of_lt_of_le (beNat_lt bs) (Nat.pow_le_pow_right (by omega) h)

theorem be32_toNat (bs : List U8) (h : bs.length ≤ 4) : (be32 bs).toNat = beNat bs := by
  unfold be32
  rw [BitVec.toNat_ofNat, Nat.mod_eq_of_lt]
  exact beNat_lt_of_le bs 4 h

/-- A whole-byte field. -/
theorem beNat_slice (bs : List U8) (i n : Nat) :
    beNat ((bs.drop i).take n) = field bs (8 * i) (8 * n) := by
  unfold field
  rw [beNat_eq]
  congr 1
  have hdrop : ∀ (bs : List U8) (i : Nat), (bits bs).drop (8 * i) = bits (bs.drop i) := by
    intro bs
    induction bs with
    | nil => simp
    | cons b bs ih =>
      intro i
      cases i with
      | zero => simp
      | succ i =>
        simp only [bits_cons, List.drop_succ_cons]
        rw [show 8 * (i + 1) = (byteBits b).length + 8 * i by simp; omega, List.drop_append]
        rw [List.drop_eq_nil_of_le (by omega), Nat.add_sub_cancel_left, ih, List.nil_append]
  have htake : ∀ (bs : List U8) (i : Nat), (bits bs).take (8 * i) = bits (bs.take i) := by
    intro bs
    induction bs with
    | nil => simp
    | cons b bs ih =>
      intro i
      cases i with
      | zero => simp
      | succ i =>
        simp only [bits_cons, List.take_succ_cons]
        rw [show 8 * (i + 1) = (byteBits b).length + 8 * i by simp; omega, List.take_append]
        rw [List.take_of_length_le (by omega), Nat.add_sub_cancel_left, ih]
  rw [hdrop, htake]

theorem daysTo1958_eq : daysTo1958 = 21184 := by decide +kernel

end Ccsds
