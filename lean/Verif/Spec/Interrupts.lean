import Verif.Spec.Sync
/-!
# Specification vocabulary for synchronization over a reader whose reads can be interrupted
-/
namespace Ccsds.Spec

/-- Where a reader's reads are interrupted (`ErrorKind::Interrupted`): for every interruption the number of bytes delivered
before it (counted from `n`), in order. -/
def interruptsFrom : Nat → List Ev → List Nat
  | _, [] => []
  | n, .data c :: es => interruptsFrom (n + c.length) es
  | n, .err _ :: es => n :: interruptsFrom n es

/-- The marker `m`, if it were at bit `x` of `s`, would agree with all of the first `known` bits of `s` that it covers. -/
def Agrees (m s : List Bool) (known x : Nat) : Prop :=
  ∀ (k : Nat) (b : Bool), m[k]? = some b → x + k < known → s[x + k]? = some b

/-- `x` is the first bit at or after `start` where the marker may still be when only the first `known` bits are known. -/
def FirstCandidate (m s : List Bool) (known start x : Nat) : Prop :=
  start ≤ x ∧ Agrees m s known x ∧ ∀ j, start ≤ j → j < x → ¬ Agrees m s known j

/-- What a synchronizer that looks for the marker `m` from bit `start` of `s` comes across, in order, when its reads are
interrupted after the byte counts `ints`: `some i` is a marker at bit `i`, `none` an interruption that it notices.
* nothing: no interruption is left and there is no further marker;
* a marker, the first occurrence, all of which arrives before the next interruption; it goes on `skip` bits after the marker,
  and the interruptions while these bits are read go unnoticed;
* an interruption after `n` bytes, before the first candidate `x` is complete: it forgets the bits of that candidate it has
  seen, and goes on with byte `n`, at the same bit within the byte. -/
inductive Visits (m s : List Bool) (skip : Nat) : List Nat → Nat → List (Option Nat) → Prop where
  | none {start : Nat} : (∀ i, start ≤ i → ¬ Occurs m s i) → Visits m s skip [] start []
  | marker {ints : List Nat} {start i : Nat} {ps : List (Option Nat)} : FirstAt m s start i → (∀ n ∈ ints, i + m.length ≤ 8 * n) →
      Visits m s skip (ints.filter fun n => i + m.length + skip ≤ 8 * n) (i + m.length + skip) ps →
      Visits m s skip ints start (some i :: ps)
  | interrupted {n : Nat} {ints : List Nat} {start x : Nat} {ps : List (Option Nat)} : FirstCandidate m s (8 * n) start x →
      8 * n < x + m.length → Visits m s skip ints (8 * n + x % 8) ps → Visits m s skip (n :: ints) start (none :: ps)

end Ccsds.Spec
