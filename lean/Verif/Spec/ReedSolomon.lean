import Verif.Model.ReedSolomon
/-!
# Specification: interleaved block codes and bounded-distance decoders

`Interleave`: CCSDS 131.0-B section 4.3.5 – byte `j` of a block of depth `I` is symbol `j div I` of codeword `j mod I`.
`Bounded`: what is assumed of crate `rs2`.
-/
namespace Ccsds.Spec

/-- Codeword `i` of a block of depth `I`: the bytes at positions `i, i + I, i + 2 I, …`. -/
def codeword (I : Nat) (block : List (BitVec 8)) (i : Nat) : List (BitVec 8) :=
  (List.range 255).map fun p => block.getD (p * I + i) 0

/-- Hamming distance of two words of equal length. -/
def dist (a b : List (BitVec 8)) : Nat := (List.zipWith (fun x y => if x = y then 0 else 1) a b).sum

/-- `k` is a bounded-distance decoder of correction radius 16 for the code `code` (words of 255 bytes): code words are
error free, words within distance 16 of a code word are corrected to it (with a positive count), all others are
uncorrectable. (Any code with such a decoder has minimum distance at least 33.) -/
structure Bounded (k : Codec) (code : List (BitVec 8) → Prop) : Prop where
  length : ∀ c, code c → c.length = 255
  detects : ∀ m, m.length = 255 → (k.hasErrors m = false ↔ code m)
  clean : ∀ c, code c → k.correctMessage c = (.ok, some c)
  corrects : ∀ m c, m.length = 255 → code c → m ≠ c → dist m c ≤ 16 →
    ∃ n, 0 < n ∧ k.correctMessage m = (.corrected n, some c)
  gives_up : ∀ m, m.length = 255 → (∀ c, code c → 16 < dist m c) → (k.correctMessage m).1 = .uncorrectable

end Ccsds.Spec
