import Verif.Spec.Reader
import Verif.Spec.Bits
/-!
# Specification vocabulary for synchronization: bit strings and occurrences of a marker in them
-/
namespace Ccsds.Spec

/-- The reader hands out exactly the bytes `bs`, in `read` results of any (non-zero) sizes, and then end of file; no `read`
fails. -/
def Smooth (r : Reader) (bs : List (BitVec 8)) : Prop :=
  (∀ e ∈ r.script, ∃ c, c ≠ [] ∧ e = .data c) ∧ evBytes r.script = bs ∧ r.tail = .eof

/-- The bit string `m` occurs in the bit string `s` at position `i`. -/
def Occurs (m s : List Bool) (i : Nat) : Prop := m <+: s.drop i

/-- `i` is the first position at or after `start` where `m` occurs in `s`. -/
def FirstAt (m s : List Bool) (start i : Nat) : Prop :=
  start ≤ i ∧ Occurs m s i ∧ ∀ j, start ≤ j → j < i → ¬ Occurs m s j

/-- `ps` are the marker positions an ideal synchronizer visits from position `start`: the first occurrence of the marker `m`,
then, `skip` bits after the end of that marker, the next first occurrence, and so on until there is none left. -/
inductive Markers (m s : List Bool) (skip : Nat) : Nat → List Nat → Prop where
  | none {start : Nat} : (∀ i, start ≤ i → ¬ Occurs m s i) → Markers m s skip start []
  | cons {start i : Nat} {ps : List Nat} : FirstAt m s start i → Markers m s skip (i + m.length + skip) ps →
      Markers m s skip start (i :: ps)

end Ccsds.Spec
