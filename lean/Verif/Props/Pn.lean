import Verif.Model.Pn
import Verif.Spec.Pn
import Verif.Proofs.Bits
/-!
# C31, C32: derandomization
-/
namespace Ccsds
open Spec Pn

/-! ## C31  `derandomize` is an involution that preserves length -/

theorem C31_length (d : List U8) : (derandomize d).length = d.length := by simp [derandomize]

theorem C31_involution (d : List U8) : derandomize (derandomize d) = d := by
  apply List.ext_getElem
  · simp [derandomize]
  · intro i h1 h2
    simp only [derandomize, List.getElem_mapIdx, derandByte]
    rw [BitVec.xor_assoc, BitVec.xor_self, BitVec.xor_zero]

/-- Each output byte depends only on the input byte at the same position. -/
theorem C31_append (d e : List U8) : (derandomize (d ++ e)).take d.length = derandomize d := by
  apply List.ext_getElem
  · simp [derandomize]
  · intro i h1 h2
    simp only [derandomize, List.length_mapIdx] at h2
    simp [derandomize, List.getElem_append_left h2]

/-- The test vector of pn.rs. -/
example : derandomize [0x98, 0x18, 0x98, 0x82, 0x8c, 0x8d] = [0x67, 0x50, 0x96, 0x42, 0x16, 0x80] := by decide +kernel

/-! ## C32  … with the CCSDS pseudo-random sequence -/

/-- The table in the source is what `generate_pn_sequence(0xa9, 0xff)` computes. -/
theorem C32_table_generated : generatePnSequence 0xa9 0xff = SEQUENCE := by decide +kernel

theorem SEQUENCE_length : SEQUENCE.length = 255 := by decide +kernel

/-- `flip_bits` reverses the bits of a byte. -/
theorem C32_flip_bits (b : U8) : byteBits (flipBits b) = (byteBits b).reverse := by
  revert b; decide +kernel

/-- The sequence from a state on, as a list. -/
def pnRun : Nat → PnState → List Bool
  | 0, _ => []
  | n + 1, s => s.s0 :: pnRun n (pnNext s)

def pnIter : Nat → PnState → PnState
  | 0, s => s
  | n + 1, s => pnIter n (pnNext s)

theorem pnIter_eq (n k : Nat) : pnIter n (pnState k) = pnState (k + n) := by
  induction n generalizing k with
  | zero => rfl
  | succ n ih =>
    rw [pnIter, show pnNext (pnState k) = pnState (k + 1) from rfl, ih]
    congr 1; omega

theorem pnRun_getD (n k i : Nat) (h : i < n) : (pnRun n (pnState k)).getD i false = pnBit (k + i) := by
  induction n generalizing k i with
  | zero => omega
  | succ n ih =>
    cases i with
    | zero => rfl
    | succ i =>
      rw [pnRun, List.getD_cons_succ, show pnNext (pnState k) = pnState (k + 1) from rfl, ih _ _ (by omega)]
      congr 1; omega

/-- Compare a table with the sequence one byte at a time. -/
def checkTable : List U8 → PnState → Bool
  | [], s => decide (s = pnStart)
  | b :: l, s => decide (byteBits b = pnRun 8 s) && checkTable l (pnIter 8 s)

theorem pnRun_add (m n : Nat) (s : PnState) : pnRun (m + n) s = pnRun m s ++ pnRun n (pnIter m s) := by
  induction m generalizing s with
  | zero => simp [pnRun, pnIter]
  | succ m ih => rw [show m + 1 + n = (m + n) + 1 by omega, pnRun, ih, pnRun, pnIter]; rfl

theorem checkTable_bits (l : List U8) (s : PnState) (h : checkTable l s = true) : bits l = pnRun (8 * l.length) s := by
  induction l generalizing s with
  | nil => rfl
  | cons b l ih =>
    simp only [checkTable, Bool.and_eq_true, decide_eq_true_eq] at h
    rw [bits_cons, List.length_cons, show 8 * (l.length + 1) = 8 + 8 * l.length by omega, pnRun_add, h.1, ih _ h.2]

theorem pnIter_add (m n : Nat) (s : PnState) : pnIter (m + n) s = pnIter n (pnIter m s) := by
  induction m generalizing s with
  | zero => simp [pnIter]
  | succ m ih => rw [show m + 1 + n = (m + n) + 1 by omega, pnIter, ih, pnIter]

theorem checkTable_returns (l : List U8) (s : PnState) (h : checkTable l s = true) : pnIter (8 * l.length) s = pnStart := by
  induction l generalizing s with
  | nil => exact of_decide_eq_true h
  | cons b l ih =>
    simp only [checkTable, Bool.and_eq_true, decide_eq_true_eq] at h
    rw [List.length_cons, show 8 * (l.length + 1) = 8 + 8 * l.length by omega, pnIter_add, ih _ h.2]

/-- The whole table, bit by bit, is the first 2040 bits of the sequence … -/
theorem sequence_bits : bits SEQUENCE = pnRun 2040 pnStart := by
  have h := checkTable_bits SEQUENCE pnStart (by decide +kernel)
  rwa [SEQUENCE_length] at h

/-- … after which the sequence repeats. -/
theorem pn_returns : pnIter 2040 pnStart = pnStart := by
  have h := checkTable_returns SEQUENCE pnStart (by decide +kernel)
  rwa [SEQUENCE_length] at h

theorem pnState_periodic (n : Nat) : pnState (n + 2040) = pnState n := by
  induction n with
  | zero =>
    rw [← pnIter_eq 2040 0]
    exact pn_returns
  | succ n ih =>
    rw [show n + 1 + 2040 = (n + 2040) + 1 by omega]
    show pnNext (pnState (n + 2040)) = pnNext (pnState n)
    rw [ih]

theorem pnState_mod (n : Nat) : pnState n = pnState (n % 2040) := by
  have : ∀ q r, pnState (r + 2040 * q) = pnState r := by
    intro q
    induction q with
    | zero => intro r; rfl
    | succ q ih => intro r; rw [show r + 2040 * (q + 1) = (r + 2040 * q) + 2040 by omega, pnState_periodic, ih]
  conv => lhs; rw [← Nat.mod_add_div n 2040]
  exact this _ _

theorem bits_getD (l : List U8) (n : Nat) (h : n < 8 * l.length) :
    (bits l).getD n false = (byteBits (l.getD (n / 8) 0)).getD (n % 8) false := by
  induction l generalizing n with
  | nil => simp at h
  | cons b l ih =>
    simp only [List.length_cons] at h
    rw [bits_cons]
    by_cases hn : n < 8
    · rw [List.getD_eq_getElem?_getD, List.getElem?_append_left (by simpa using hn), ← List.getD_eq_getElem?_getD,
        Nat.div_eq_of_lt hn, Nat.mod_eq_of_lt hn]; rfl
    · rw [List.getD_eq_getElem?_getD, List.getElem?_append_right (by simp; omega), ← List.getD_eq_getElem?_getD,
        byteBits_length, ih _ (by omega)]
      rw [show n / 8 = (n - 8) / 8 + 1 by omega, List.getD_cons_succ, show (n - 8) % 8 = n % 8 by omega]

theorem byteBits_xor (a b : U8) (i : Nat) (h : i < 8) :
    (byteBits (a ^^^ b)).getD i false = ((byteBits a).getD i false ^^ (byteBits b).getD i false) := by
  have : i = 0 ∨ i = 1 ∨ i = 2 ∨ i = 3 ∨ i = 4 ∨ i = 5 ∨ i = 6 ∨ i = 7 := by omega
  rcases this with h | h | h | h | h | h | h | h <;> subst h <;> simp [byteBits]

/-- Bit `n` of the output is bit `n` of the input XOR bit `n` of the sequence, for every position of every buffer. -/
theorem C32_bits (d : List U8) (n : Nat) (h : n < 8 * d.length) :
    (bits (derandomize d)).getD n false = ((bits d).getD n false ^^ pnBit n) := by
  have hi : n / 8 < d.length := by omega
  rw [bits_getD _ _ (by rw [C31_length]; exact h), bits_getD _ _ h]
  have e : (derandomize d).getD (n / 8) 0 = d.getD (n / 8) 0 ^^^ SEQUENCE.getD (n / 8 % 255) 0 := by
    simp only [derandomize, derandByte, SEQUENCE_length, List.getD_eq_getElem?_getD, List.getElem?_mapIdx,
      List.getElem?_eq_getElem hi, Option.map_some, Option.getD_some]
  rw [e, byteBits_xor _ _ _ (by omega)]
  congr 1
  have h1 := bits_getD SEQUENCE (n % 2040) (by rw [SEQUENCE_length]; omega)
  rw [sequence_bits, show pnStart = pnState 0 from rfl, pnRun_getD _ _ _ (by omega)] at h1
  rw [show n / 8 % 255 = n % 2040 / 8 by omega, show n % 8 = n % 2040 % 8 by omega, ← h1, Nat.zero_add]
  unfold pnBit
  rw [← pnState_mod]

example : (bits (derandomize [0x98, 0x18])).getD 9 false = true := by decide +kernel

end Ccsds
