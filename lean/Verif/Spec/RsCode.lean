import Verif.Spec.ReedSolomon
import Mathlib.LinearAlgebra.Vandermonde
/-!
# Specification: the Reed–Solomon code (255, 223)

CCSDS 131.0-B section 4.3: a code word is a polynomial of degree below 255 over the field with 256 elements, its first byte the coefficient of `x ^ 254`, which has
the roots `β ^ b, β ^ (b + 1), …, β ^ (b + 31)`; there `β = α ^ 11` and `b = 112` (`β` has order 255). How bytes represent field elements (the conventional
or the dual basis) is a bijection `e`, left open here.
-/
namespace Ccsds.Spec

/-- The value at `x` of the polynomial with the given code word. -/
def evalWord {F : Type} [Field F] (e : BitVec 8 ≃ F) (c : List (BitVec 8)) (x : F) : F :=
  ∑ i ∈ Finset.range 255, e (c.getD i 0) * x ^ (254 - i)

/-- The Reed–Solomon code (255, 223). -/
def rsCode {F : Type} [Field F] (e : BitVec 8 ≃ F) (β : F) (b : Nat) (c : List (BitVec 8)) : Prop :=
  c.length = 255 ∧ ∀ j, j < 32 → evalWord e c (β ^ (b + j)) = 0

end Ccsds.Spec
