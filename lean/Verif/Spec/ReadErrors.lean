import Verif.Spec.Sync
import Verif.Model.Sync
/-!
# Specification vocabulary for synchronization over readers that do anything
-/
namespace Ccsds.Spec

/-- Where reads report an end of file (`Ok(0)`, or the error `UnexpectedEof`), for good or not: the numbers of bytes delivered before
(counted from `n`). -/
def endsFrom (tail : Tail) : Nat → List Ev → List Nat
  | n, [] => if tail = .eof then [n] else []
  | n, .data c :: es => if c = [] then n :: endsFrom tail n es else endsFrom tail (n + c.length) es
  | n, .err k :: es => if k = .unexpectedEof then n :: endsFrom tail n es else endsFrom tail n es

/-- The items of a synchronizer that looks for the marker `m` in the bits `s` and hands out blocks of `size` bits, from bit `start` on.
`fresh`: nothing but `Interrupted` has gone wrong since the last block.
* An `Ok` block (when fresh) is what follows the first marker: `size` bits, or (at a byte boundary) fewer, up to where a read reported the end of
  the file, and then zeros. Then it goes on right behind.
* After an `Err` item it goes on somewhere behind, fresh if the error was `Interrupted`.
* An `Ok` block when not fresh: `size` consecutive bits from somewhere behind (or fewer, as before). -/
inductive Sound (m s : List Bool) (ends : List Nat) (size : Nat) : Nat → Bool → List (Except Error Block) → Prop where
  | nil {start : Nat} {fresh : Bool} : Sound m s ends size start fresh []
  | ok {start i : Nat} {b : Block} {items : List (Except Error Block)} : FirstAt m s start i → i + m.length + size ≤ s.length →
      bits b.data = (s.drop (i + m.length)).take size → Sound m s ends size (i + m.length + size) true items →
      Sound m s ends size start true (.ok b :: items)
  | cut {start i n : Nat} {b : Block} {items : List (Except Error Block)} : FirstAt m s start i → (i + m.length) % 8 = 0 → n ∈ ends →
      i + m.length ≤ 8 * n → 8 * n < i + m.length + size →
      bits b.data = (s.drop (i + m.length)).take (8 * n - (i + m.length)) ++ List.replicate (i + m.length + size - 8 * n) false →
      Sound m s ends size (8 * n) true items → Sound m s ends size start true (.ok b :: items)
  | err {start start' : Nat} {fresh fresh' : Bool} {e : Error} {items : List (Except Error Block)} : start ≤ start' →
      (e = .io .interrupted → fresh' = fresh) → Sound m s ends size start' fresh' items → Sound m s ends size start fresh (.error e :: items)
  | later {start i : Nat} {b : Block} {items : List (Except Error Block)} : start ≤ i → i + size ≤ s.length →
      bits b.data = (s.drop i).take size → Sound m s ends size (i + size) true items → Sound m s ends size start false (.ok b :: items)
  | laterCut {start i n : Nat} {b : Block} {items : List (Except Error Block)} : start ≤ i → i % 8 = 0 → n ∈ ends → i ≤ 8 * n → 8 * n < i + size →
      bits b.data = (s.drop i).take (8 * n - i) ++ List.replicate (i + size - 8 * n) false → Sound m s ends size (8 * n) true items →
      Sound m s ends size start false (.ok b :: items)

end Ccsds.Spec
