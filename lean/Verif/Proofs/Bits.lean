import Verif.Spec.Bits
import Verif.Spec.SpacePacket
/-! Lemmas about `Spec.bits`, `Spec.natOfBits`, `Spec.field`. -/
namespace Ccsds.Spec

@[simp] theorem byteBits_length (b : BitVec 8) : (byteBits b).length = 8 := rfl

@[simp] theorem bits_nil : bits [] = [] := rfl
@[simp] theorem bits_cons (b : BitVec 8) (bs : List (BitVec 8)) : bits (b :: bs) = byteBits b ++ bits bs := rfl
@[simp] theorem bits_append (as bs : List (BitVec 8)) : bits (as ++ bs) = bits as ++ bits bs := by
  simp [bits, List.flatMap_append]
@[simp] theorem bits_length (bs : List (BitVec 8)) : (bits bs).length = 8 * bs.length := by
  induction bs with
  | nil => rfl
  | cons b bs ih => simp [ih]; omega

theorem byteBits_inj {a b : BitVec 8} (h : byteBits a = byteBits b) : a = b := by
  simp only [byteBits, List.cons.injEq, and_true] at h
  apply BitVec.eq_of_getMsbD_eq
  intro i hi
  have : i = 0 ∨ i = 1 ∨ i = 2 ∨ i = 3 ∨ i = 4 ∨ i = 5 ∨ i = 6 ∨ i = 7 := by omega
  rcases this with h' | h' | h' | h' | h' | h' | h' | h' <;> subst h' <;> simp only [h]

theorem bits_inj {as bs : List (BitVec 8)} (h : bits as = bits bs) : as = bs := by
  induction as generalizing bs with
  | nil => 
    have := congrArg List.length h
    simp at this
    cases bs with
    | nil => rfl
    | cons => simp at this
  | cons a as ih =>
    cases bs with
    | nil => have := congrArg List.length h; simp at this
    | cons b bs =>
      simp only [bits_cons] at h
      have := List.append_inj h (by simp)
      rw [byteBits_inj this.1, ih this.2]

theorem foldl_natOfBits (l : List Bool) (n : Nat) :
    l.foldl (fun n b => 2 * n + b.toNat) n = n * 2 ^ l.length + natOfBits l := by
  induction l generalizing n with
  | nil => simp [natOfBits]
  | cons b l ih =>
    simp only [natOfBits, List.foldl_cons, List.length_cons]
    rw [ih, ih]
    rw [Nat.pow_succ, Nat.add_mul]
    simp [Nat.mul_comm, Nat.mul_assoc, Nat.add_assoc]

@[simp] theorem natOfBits_nil : natOfBits [] = 0 := rfl

theorem natOfBits_append (l m : List Bool) : natOfBits (l ++ m) = natOfBits l * 2 ^ m.length + natOfBits m := by
  unfold natOfBits
  rw [List.foldl_append, foldl_natOfBits m]
  rfl

theorem natOfBits_cons (b : Bool) (l : List Bool) : natOfBits (b :: l) = b.toNat * 2 ^ l.length + natOfBits l := by
  have := natOfBits_append [b] l
  simpa [natOfBits] using this

theorem natOfBits_lt (l : List Bool) : natOfBits l < 2 ^ l.length := by
  induction l with
  | nil => simp
  | cons b l ih =>
    rw [natOfBits_cons, List.length_cons, Nat.pow_succ]
    cases b <;> simp <;> omega

theorem natOfBits_byteBits (b : BitVec 8) : natOfBits (byteBits b) = b.toNat := by
  revert b; decide +kernel

/-- A field of a bit string is a quotient/remainder of its big-endian value. -/
theorem natOfBits_field (l : List Bool) (s w : Nat) (h : s + w ≤ l.length) :
    natOfBits ((l.drop s).take w) = natOfBits l / 2 ^ (l.length - s - w) % 2 ^ w := by
  have e : l = l.take s ++ ((l.drop s).take w ++ l.drop (s + w)) := by
    rw [← List.drop_drop, List.take_append_drop, List.take_append_drop]
  have e2 : natOfBits l = natOfBits (l.take s) * 2 ^ (w + (l.length - s - w))
      + (natOfBits ((l.drop s).take w) * 2 ^ (l.length - s - w) + natOfBits (l.drop (s + w))) := by
    conv => lhs; rw [e]
    rw [natOfBits_append, natOfBits_append]
    congr 2
    · simp; congr 1; omega
    · simp [Nat.sub_sub]
  have hF := natOfBits_lt ((l.drop s).take w)
  have hR := natOfBits_lt (l.drop (s + w))
  have l1 : ((l.drop s).take w).length = w := by simp; omega
  have l2 : (l.drop (s + w)).length = l.length - s - w := by simp; omega
  rw [l1] at hF
  rw [l2] at hR
  rw [e2]
  generalize natOfBits (l.take s) = A at *
  generalize natOfBits ((l.drop s).take w) = F at *
  generalize natOfBits (l.drop (s + w)) = R at *
  generalize l.length - s - w = r at *
  have hpos : 0 < 2 ^ r := Nat.two_pow_pos r
  rw [Nat.pow_add, ← Nat.mul_assoc, ← Nat.add_assoc, ← Nat.add_mul, Nat.add_comm, Nat.add_mul_div_right _ _ hpos,
    Nat.div_eq_of_lt hR, Nat.zero_add, Nat.add_comm, Nat.add_mul_mod_self_right, Nat.mod_eq_of_lt hF]

theorem natBits_length (w n : Nat) : (natBits w n).length = w := by
  induction w with
  | zero => rfl
  | succ w ih => simp [natBits, ih]

theorem natOfBits_natBits (w n : Nat) : natOfBits (natBits w n) = n % 2 ^ w := by
  induction w with
  | zero => simp [natBits, Nat.mod_one]
  | succ w ih =>
    rw [natBits, natOfBits_cons, natBits_length, ih, Nat.pow_succ, Nat.mod_mul]
    have : n / 2 ^ w % 2 = 0 ∨ n / 2 ^ w % 2 = 1 := by omega
    rcases this with h | h <;> rw [h] <;> simp <;> omega

/-- Bit strings of equal length with the same value are equal. -/
theorem natOfBits_inj {l m : List Bool} (hl : l.length = m.length) (h : natOfBits l = natOfBits m) : l = m := by
  induction l generalizing m with
  | nil => cases m with
    | nil => rfl
    | cons => simp at hl
  | cons a l ih =>
    cases m with
    | nil => simp at hl
    | cons b m =>
      simp at hl
      rw [natOfBits_cons, natOfBits_cons, hl] at h
      have h1 := natOfBits_lt l
      have h2 := natOfBits_lt m
      rw [hl] at h1
      generalize 2 ^ m.length = p at *
      cases a <;> cases b <;> simp at h
      · rw [ih hl h]
      · omega
      · omega
      · rw [ih hl (by omega)]

end Ccsds.Spec

namespace Ccsds.Spec

theorem natOfBits_bits_cons (b : BitVec 8) (bs : List (BitVec 8)) :
    natOfBits (bits (b :: bs)) = b.toNat * 2 ^ (8 * bs.length) + natOfBits (bits bs) := by
  rw [bits_cons, natOfBits_append, natOfBits_byteBits, bits_length]

/-- A field that lies within the first `n` bytes only depends on them. -/
theorem field_take (bs : List (BitVec 8)) (n s w : Nat) (h : s + w ≤ 8 * n) :
    field (bs.take n) s w = field bs s w := by
  unfold field
  have e : bits bs = bits (bs.take n) ++ bits (bs.drop n) := by rw [← bits_append, List.take_append_drop]
  congr 1
  by_cases hl : bs.length ≤ n
  · rw [List.take_of_length_le hl]
  · have l1 : (bits (bs.take n)).length = 8 * n := by simp; omega
    rw [e, List.drop_append_of_le_length (by omega), List.take_append_of_le_length (by simp; omega)]

theorem field_eq (bs : List (BitVec 8)) (s w : Nat) (h : s + w ≤ 8 * bs.length) :
    field bs s w = natOfBits (bits bs) / 2 ^ (8 * bs.length - s - w) % 2 ^ w := by
  unfold field
  rw [natOfBits_field _ _ _ (by simpa using h), bits_length]

theorem field_lt (bs : List (BitVec 8)) (s w : Nat) : field bs s w < 2 ^ w := by
  refine Nat.lt_of_lt_of_le (natOfBits_lt _) (Nat.pow_le_pow_right (by omega) ?_)
  simp; omega


theorem natBits_inj {w m n : Nat} (hm : m < 2 ^ w) (hn : n < 2 ^ w) (h : natBits w m = natBits w n) : m = n := by
  have := congrArg natOfBits h
  rwa [natOfBits_natBits, natOfBits_natBits, Nat.mod_eq_of_lt hm, Nat.mod_eq_of_lt hn] at this

/-- In-range field values are determined by their serialization. -/
theorem writeFields_inj (ws us vs : List Nat) (hu : fits ws us) (hv : fits ws vs)
    (h : writeFields ws us = writeFields ws vs) : us = vs := by
  induction ws generalizing us vs with
  | nil => cases us <;> cases vs <;> simp_all [fits]
  | cons w ws ih =>
    cases us with
    | nil => simp [fits] at hu
    | cons u us =>
      cases vs with
      | nil => simp [fits] at hv
      | cons v vs =>
        simp only [writeFields] at h
        have := List.append_inj h (by simp [natBits_length])
        rw [natBits_inj hu.1 hv.1 this.1, ih us vs hu.2 hv.2 this.2]

instance fitsDecidable : (ws vs : List Nat) → Decidable (fits ws vs)
  | [], [] => isTrue trivial
  | [], _ :: _ => isFalse id
  | _ :: _, [] => isFalse id
  | w :: ws, v :: vs =>
    have := fitsDecidable ws vs
    inferInstanceAs (Decidable (v < 2 ^ w ∧ fits ws vs))

end Ccsds.Spec
