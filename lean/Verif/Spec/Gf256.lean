import Verif.Spec.RsCode
import Mathlib.Algebra.Field.MinimalAxioms
/-!
# Specification: the field and the byte representation of CCSDS 131.0-B

Section 4.3.2: the field is GF(2)[x] / (x^8 + x^7 + x^2 + x + 1), `α` the class of `x`; `β = α ^ 11`; section 4.3.9 and annex F: a byte `z0 … z7` on the channel (`z0` first, the
most significant bit) stands for the element whose coordinates `u7 … u0` in the basis `α^7, …, α, 1` are `[z0 … z7]` times the 8 × 8 matrix of annex F ("dual basis").
-/
namespace Ccsds.Spec

/-- Multiplication by `α` of an element given by its coordinates (bit `i` is the coefficient of `α ^ i`): `α^8 = α^7 + α^2 + α + 1`. -/
def xtime (b : BitVec 8) : BitVec 8 := (b <<< 1) ^^^ (if b.msb then 0b10000111#8 else 0#8)

/-- Multiplication: `(∑ aᵢ αⁱ) · b = ∑ aᵢ (αⁱ b)`. -/
def gmul (a b : BitVec 8) : BitVec 8 :=
  let t := fun (i : Nat) (v : BitVec 8) => if a.getLsbD i then v else 0#8
  let b1 := xtime b
  let b2 := xtime b1
  let b3 := xtime b2
  let b4 := xtime b3
  let b5 := xtime b4
  let b6 := xtime b5
  let b7 := xtime b6
  t 0 b ^^^ t 1 b1 ^^^ t 2 b2 ^^^ t 3 b3 ^^^ t 4 b4 ^^^ t 5 b5 ^^^ t 6 b6 ^^^ t 7 b7

/-- The inverse, `a ^ 254`. -/
def ginv (a : BitVec 8) : BitVec 8 :=
  let a2 := gmul a a
  let a4 := gmul a2 a2
  let a8 := gmul a4 a4
  let a16 := gmul a8 a8
  let a32 := gmul a16 a16
  let a64 := gmul a32 a32
  let a128 := gmul a64 a64
  gmul a2 (gmul a4 (gmul a8 (gmul a16 (gmul a32 (gmul a64 a128)))))

private def pick (c : Bool) (v : BitVec 8) : BitVec 8 := if c then v else 0#8

private theorem gmul_eq (a b : BitVec 8) : gmul a b = pick (a.getLsbD 0) b ^^^ pick (a.getLsbD 1) (xtime b) ^^^ pick (a.getLsbD 2) (xtime (xtime b)) ^^^
    pick (a.getLsbD 3) (xtime (xtime (xtime b))) ^^^ pick (a.getLsbD 4) (xtime (xtime (xtime (xtime b)))) ^^^ pick (a.getLsbD 5) (xtime (xtime (xtime (xtime (xtime b))))) ^^^
    pick (a.getLsbD 6) (xtime (xtime (xtime (xtime (xtime (xtime b)))))) ^^^ pick (a.getLsbD 7) (xtime (xtime (xtime (xtime (xtime (xtime (xtime b))))))) := rfl

private theorem pick_xor (c : Bool) (v w : BitVec 8) : pick c (v ^^^ w) = pick c v ^^^ pick c w := by cases c <;> simp [pick]
private theorem xor_pick (c d : Bool) (v : BitVec 8) : pick (c ^^ d) v = pick c v ^^^ pick d v := by cases c <;> cases d <;> simp [pick]

private theorem xtime_xor (a b : BitVec 8) : xtime (a ^^^ b) = xtime a ^^^ xtime b := by
  unfold xtime
  rw [BitVec.shiftLeft_xor_distrib, BitVec.msb_xor]
  change _ ^^^ pick _ _ = _ ^^^ pick _ _ ^^^ (_ ^^^ pick _ _)
  rw [xor_pick]
  ac_rfl

private theorem xtime_pick (c : Bool) (v : BitVec 8) : xtime (pick c v) = pick c (xtime v) := by
  cases c
  · change xtime 0#8 = 0#8; decide
  · rfl

private theorem gmul_add (a b c : BitVec 8) : gmul a (b ^^^ c) = gmul a b ^^^ gmul a c := by
  simp only [gmul_eq, xtime_xor, pick_xor]
  ac_rfl

private theorem add_gmul (a b c : BitVec 8) : gmul (a ^^^ b) c = gmul a c ^^^ gmul b c := by
  simp only [gmul_eq, BitVec.getLsbD_xor, xor_pick]
  ac_rfl

private theorem pick_gmul (x : Bool) (a b : BitVec 8) : gmul (pick x a) b = pick x (gmul a b) := by
  cases x
  · simp [pick, gmul]
  · rfl

/-- An element is the sum of its coordinates times powers of `α`. -/
private theorem coords : ∀ a : BitVec 8, a = pick (a.getLsbD 0) 1#8 ^^^ pick (a.getLsbD 1) 2#8 ^^^ pick (a.getLsbD 2) 4#8 ^^^ pick (a.getLsbD 3) 8#8 ^^^
    pick (a.getLsbD 4) 16#8 ^^^ pick (a.getLsbD 5) 32#8 ^^^ pick (a.getLsbD 6) 64#8 ^^^ pick (a.getLsbD 7) 128#8 := by decide +kernel

private theorem basis : ∀ b : BitVec 8, gmul (xtime 1#8) b = xtime (gmul 1#8 b) ∧ gmul (xtime 2#8) b = xtime (gmul 2#8 b) ∧ gmul (xtime 4#8) b = xtime (gmul 4#8 b) ∧
    gmul (xtime 8#8) b = xtime (gmul 8#8 b) ∧ gmul (xtime 16#8) b = xtime (gmul 16#8 b) ∧ gmul (xtime 32#8) b = xtime (gmul 32#8 b) ∧ gmul (xtime 64#8) b = xtime (gmul 64#8 b) ∧
    gmul (xtime 128#8) b = xtime (gmul 128#8 b) := by decide +kernel

private theorem xtime_gmul (a b : BitVec 8) : gmul (xtime a) b = xtime (gmul a b) := by
  obtain ⟨h0, h1, h2, h3, h4, h5, h6, h7⟩ := basis b
  rw [coords a]
  simp only [xtime_xor, add_gmul, xtime_pick, pick_gmul, h0, h1, h2, h3, h4, h5, h6, h7]

theorem gmul_assoc (a b c : BitVec 8) : gmul (gmul a b) c = gmul a (gmul b c) := by
  rw [gmul_eq a b, gmul_eq a (gmul b c)]
  simp only [add_gmul, pick_gmul, xtime_gmul]

private theorem gmul_one : ∀ a : BitVec 8, gmul a 1 = a := by decide +kernel
private theorem one_gmul : ∀ a : BitVec 8, gmul 1 a = a := by decide +kernel
private theorem gmul_inv : ∀ a : BitVec 8, a ≠ 0 → gmul a (ginv a) = 1 := by decide +kernel

private theorem gmul_xtime (a b : BitVec 8) : gmul a (xtime b) = xtime (gmul a b) := by
  simp only [gmul_eq, xtime_xor, xtime_pick]

theorem gmul_comm (a b : BitVec 8) : gmul a b = gmul b a := by
  rw [gmul_eq b a, ← gmul_one a]
  simp only [gmul_one]
  conv => lhs; rw [coords b]
  simp only [gmul_add]
  have z : ∀ x v, gmul a (pick x v) = pick x (gmul a v) := by
    intro x v; cases x
    · change gmul a 0#8 = 0#8
      have := gmul_add a 0#8 0#8
      simpa using this
    · rfl
  have p : ∀ n v, v = xtime n → gmul a v = xtime (gmul a n) := fun n v h => by rw [h, gmul_xtime]
  simp only [z, p 1#8 2#8 rfl, p 2#8 4#8 rfl, p 4#8 8#8 rfl, p 8#8 16#8 rfl, p 16#8 32#8 rfl, p 32#8 64#8 rfl, p 64#8 128#8 rfl]
  have : gmul a 1#8 = a := gmul_one a
  simp only [this]

/-- The field with 256 elements of CCSDS, by coordinates. -/
structure Gf where
  coordinates : BitVec 8
  deriving DecidableEq

namespace Gf

instance : Add Gf := ⟨fun a b => ⟨a.coordinates ^^^ b.coordinates⟩⟩
instance : Mul Gf := ⟨fun a b => ⟨gmul a.coordinates b.coordinates⟩⟩
instance : Zero Gf := ⟨⟨0⟩⟩
instance : One Gf := ⟨⟨1⟩⟩
instance : Neg Gf := ⟨fun a => a⟩
instance : Inv Gf := ⟨fun a => ⟨ginv a.coordinates⟩⟩

@[ext] theorem ext {a b : Gf} (h : a.coordinates = b.coordinates) : a = b := by cases a; cases b; exact congrArg Gf.mk h

@[simp] theorem add_coordinates (a b : Gf) : (a + b).coordinates = a.coordinates ^^^ b.coordinates := rfl
@[simp] theorem mul_coordinates (a b : Gf) : (a * b).coordinates = gmul a.coordinates b.coordinates := rfl
@[simp] theorem zero_coordinates : (0 : Gf).coordinates = 0 := rfl
@[simp] theorem one_coordinates : (1 : Gf).coordinates = 1 := rfl

instance : Field Gf := Field.ofMinimalAxioms Gf
  (fun a b c => ext (BitVec.xor_assoc ..))
  (fun a => ext (BitVec.zero_xor ..))
  (fun a => ext (BitVec.xor_self ..))
  (fun a b c => ext (gmul_assoc ..))
  (fun a b => ext (gmul_comm ..))
  (fun a => ext (one_gmul _))
  (fun a h => ext (gmul_inv _ (fun h' => h (ext h'))))
  (ext (by decide))
  (fun a b c => ext (gmul_add ..))
  ⟨0, 1, fun h => absurd (congrArg Gf.coordinates h) (by decide)⟩

/-- The primitive element. -/
def α : Gf := ⟨2⟩

end Gf

/-- Annex F: the matrix that takes a byte of the channel to coordinates, row by row (`z0` first; each row is `u7 … u0`). -/
def dualMatrix : List (BitVec 8) := [0b11000101, 0b01000010, 0b00101110, 0b11111101, 0b11110000, 0b01111001, 0b10101100, 0b11001100]

/-- Annex F: the matrix that takes coordinates to a byte of the channel (`u7` first; each row is `z0 … z7`). -/
def dualMatrix' : List (BitVec 8) := [0b10001101, 0b11101111, 0b11101100, 0b10000110, 0b11111010, 0b10011001, 0b10101111, 0b01111011]

/-- A row vector times a matrix. -/
def rowTimes (m : List (BitVec 8)) (v : BitVec 8) : BitVec 8 :=
  (List.range 8).foldl (fun acc i => if v.getMsbD i then acc ^^^ m.getD i 0 else acc) 0

/-- The byte representation of CCSDS. -/
def dualBasis : BitVec 8 ≃ Gf where
  toFun b := ⟨rowTimes dualMatrix b⟩
  invFun a := rowTimes dualMatrix' a.coordinates
  left_inv := by
    have : ∀ b, rowTimes dualMatrix' (rowTimes dualMatrix b) = b := by decide +kernel
    exact this
  right_inv := by
    have : ∀ b, rowTimes dualMatrix (rowTimes dualMatrix' b) = b := by decide +kernel
    exact fun a => Gf.ext (this _)

/-- The Reed–Solomon code (255, 223) of CCSDS 131.0-B, as bytes on the channel. -/
def ccsdsCode : List (BitVec 8) → Prop := rsCode dualBasis (Gf.α ^ 11) 112

end Ccsds.Spec
