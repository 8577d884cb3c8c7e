/-!
# Specification: modular counters and gaps

Independent of the model.
-/
namespace Ccsds.Spec

/-- Number of counter values skipped when `last` is followed by `cur` and the counter runs modulo `n`. -/
def gap (n cur last : Nat) : Nat := (cur + n - last - 1) % n

/-- Total number of counter values skipped in a history of received counter values. -/
def gapSum (n : Nat) : List Nat → Nat
  | a :: b :: l => gap n b a + gapSum n (b :: l)
  | _ => 0

/-- `ks` are the absolute (never wrapping) numbers of the packets received, in order: strictly increasing, with fewer than
`n` lost in a row. -/
def Received (n : Nat) : List Nat → Prop
  | a :: b :: l => a < b ∧ b ≤ a + n ∧ Received n (b :: l)
  | _ => True

/-- How many of the numbers from the first to the last received were not received. -/
def lost (ks : List Nat) : Nat :=
  match ks.head?, ks.getLast? with
  | some a, some b => ((List.range' a (b + 1 - a)).filter (fun k => !ks.contains k)).length
  | _, _ => 0

end Ccsds.Spec
