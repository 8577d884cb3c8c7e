import Verif.Spec.Bits
/-!
# Specification: the CCSDS 131.0-B pseudo-random sequence

The bit sequence with characteristic polynomial `h(x) = x^8 + x^7 + x^5 + x^3 + 1`, i.e.
`s(n+8) = s(n+7) + s(n+5) + s(n+3) + s(n)` over GF(2), whose first eight bits are ones.
-/
namespace Ccsds.Spec

/-- Eight consecutive bits of the sequence, `s(n) … s(n+7)`. -/
structure PnState where
  (s0 s1 s2 s3 s4 s5 s6 s7 : Bool)
  deriving DecidableEq

def pnNext (s : PnState) : PnState :=
  ⟨s.s1, s.s2, s.s3, s.s4, s.s5, s.s6, s.s7, s.s7 ^^ s.s5 ^^ s.s3 ^^ s.s0⟩

def pnStart : PnState := ⟨true, true, true, true, true, true, true, true⟩

def pnState : Nat → PnState
  | 0 => pnStart
  | n + 1 => pnNext (pnState n)

/-- Bit `n` of the pseudo-random sequence. -/
def pnBit (n : Nat) : Bool := (pnState n).s0

end Ccsds.Spec
