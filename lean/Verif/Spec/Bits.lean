/-!
# Specification vocabulary: byte strings as bit strings, most significant bit first

Independent of the model: only Lean's `BitVec` and `List` are used.
-/
namespace Ccsds.Spec

/-- The 8 bits of a byte, most significant first. -/
def byteBits (b : BitVec 8) : List Bool :=
  [b.getMsbD 0, b.getMsbD 1, b.getMsbD 2, b.getMsbD 3, b.getMsbD 4, b.getMsbD 5, b.getMsbD 6, b.getMsbD 7]

/-- The bit string of a byte string. -/
def bits (bs : List (BitVec 8)) : List Bool := bs.flatMap byteBits

/-- Unsigned big-endian value of a bit string. -/
def natOfBits (l : List Bool) : Nat := l.foldl (fun n b => 2 * n + b.toNat) 0

/-- The `width`-bit big-endian field of a byte string that starts `start` bits after its beginning. -/
def field (bs : List (BitVec 8)) (start width : Nat) : Nat := natOfBits (((bits bs).drop start).take width)

/-- `n` written as `width` bits, most significant first. -/
def natBits : (width : Nat) → (n : Nat) → List Bool
  | 0, _ => []
  | w + 1, n => (n / 2 ^ w % 2 == 1) :: natBits w n

end Ccsds.Spec
