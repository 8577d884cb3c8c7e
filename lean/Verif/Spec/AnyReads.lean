import Verif.Spec.Interrupts
import Verif.Model.Sync
/-!
# Specification vocabulary: exactly what `synchronize` makes of a reader that does anything
-/
namespace Ccsds.Spec

/-- Where reads go wrong: for every read that delivers nothing, the number of bytes delivered before it (counted from `n`) and what it reports.
`Ok(0)` counts as `UnexpectedEof`. -/
def upsetsFrom : Nat → List Ev → List (Nat × IoKind)
  | _, [] => []
  | n, .data c :: es => if c = [] then (n, .unexpectedEof) :: upsetsFrom n es else upsetsFrom (n + c.length) es
  | n, .err k :: es => (n, k) :: upsetsFrom n es

/-- What every read reports once all that was to come has come. -/
def everAfter : Tail → IoKind
  | .eof => .unexpectedEof
  | .fail c => .other c

/-- The next thing to go wrong, when the bytes `V` and the upsets `D` are to come and all reads report `T` after that. -/
def nextUpset (T : IoKind) (V : List U8) (D : List (Nat × IoKind)) : Nat × IoKind := D.head?.getD (V.length, T)

/-- The upsets from the first that is not an `Interrupted`, which `read_exact` passes over. -/
def uninterrupted (D : List (Nat × IoKind)) : List (Nat × IoKind) := D.dropWhile fun u => u.2 = .interrupted

/-- The results of successive calls, also after the end was reported. -/
inductive Calls {S α : Type} (next : S → Outcome (Option α × S)) : S → List (Option α) → S → Prop where
  | nil {s : S} : Calls next s [] s
  | cons {s s' t : S} {a : Option α} {as : List (Option α)} : next s = .ret (a, s') → Calls next s' as t → Calls next s (a :: as) t

/-- What successive calls return. The marker is `m`, blocks have `len` bytes. The bytes `V` are to come, the first of which is counted as byte `base`
of the stream; reads go wrong at `D` (counted in `V`) and report `T` for ever after that; the marker is looked for from bit `start`; the
previous marker, if any, ended before byte `prev`.
* `block`: the first marker is complete before anything goes wrong, and so is the block behind it, but for interruptions.
* `cut`: a read reports the end of the file inside the block, which starts at a byte boundary: the rest is zeros. The bytes read for it are not
  counted.
* `failed`: another error inside the block, or one inside a block that starts inside a byte: an `Err`. The bytes read for the block are lost, and not
  counted; but the byte in which the block starts stays in front of what comes next.
* `upset`: something goes wrong before the first candidate for a marker is complete: the end of the file means `None`, anything else is an `Err`. The
  search goes on with the next byte that comes, at the same bit within the byte. -/
inductive Heard (m : List U8) (len : Nat) (T : IoKind) :
    List U8 → Nat → List (Nat × IoKind) → Nat → Nat → List (Option (Except Error Block)) → Prop where
  | nil {V : List U8} {base : Nat} {D : List (Nat × IoKind)} {start prev : Nat} : Heard m len T V base D start prev []
  | block {V : List U8} {base : Nat} {D : List (Nat × IoKind)} {start prev i : Nat} {data : List U8} {rs : List (Option (Except Error Block))} :
      FirstAt (bits m) (bits V) start i → i + 8 * m.length ≤ 8 * (nextUpset T V D).1 →
      i + 8 * m.length + 8 * len ≤ 8 * (nextUpset T V (uninterrupted D)).1 →
      bits data = ((bits V).drop (i + 8 * m.length)).take (8 * len) →
      Heard m len T V base (D.filter fun u => i + 8 * m.length + 8 * len ≤ 8 * u.1) (i + 8 * m.length + 8 * len) (base + i / 8 + m.length + 1) rs →
      Heard m len T V base D start prev
        (some (.ok ⟨if prev = 0 then 0 else base + i / 8 + m.length + 1 - prev, ⟨base + i / 8 + m.length + 1, BitVec.ofNat 8 ((8 - i % 8) % 8)⟩, data⟩) :: rs)
  | cut {V : List U8} {base : Nat} {D : List (Nat × IoKind)} {start prev i n : Nat} {rs : List (Option (Except Error Block))} :
      FirstAt (bits m) (bits V) start i → i + 8 * m.length ≤ 8 * (nextUpset T V D).1 →
      nextUpset T V (uninterrupted D) = (n, .unexpectedEof) → 8 * n < i + 8 * m.length + 8 * len → i % 8 = 0 →
      Heard m len T (V.drop n) (base + i / 8 + m.length) ((uninterrupted D).tail.map fun u => (u.1 - n, u.2)) 0 (base + i / 8 + m.length + 1) rs →
      Heard m len T V base D start prev
        (some (.ok ⟨if prev = 0 then 0 else base + i / 8 + m.length + 1 - prev, ⟨base + i / 8 + m.length + 1, 0#8⟩,
          (V.take n).drop (i / 8 + m.length) ++ List.replicate (len - (n - (i / 8 + m.length))) 0#8⟩) :: rs)
  | failed {V : List U8} {base : Nat} {D : List (Nat × IoKind)} {start prev i n : Nat} {k : IoKind} {held rs' : List U8}
      {rs : List (Option (Except Error Block))} :
      FirstAt (bits m) (bits V) start i → i + 8 * m.length ≤ 8 * (nextUpset T V D).1 →
      nextUpset T V (uninterrupted D) = (n, k) → 8 * n < i + 8 * m.length + 8 * len → (k = .unexpectedEof → i % 8 ≠ 0) →
      V.drop (i / 8 + m.length) = held ++ rs' → held.length = (if i % 8 = 0 then 0 else 1) →
      Heard m len T (held ++ V.drop n) (base + i / 8 + m.length) ((uninterrupted D).tail.map fun u => (u.1 - n + held.length, u.2)) (i % 8)
        (base + i / 8 + m.length + 1) rs →
      Heard m len T V base D start prev (some (.error (.io k)) :: rs)
  | upset {V : List U8} {base : Nat} {D : List (Nat × IoKind)} {start prev x n : Nat} {k : IoKind} {rs : List (Option (Except Error Block))} :
      nextUpset T V D = (n, k) → FirstCandidate (bits m) (bits V) (8 * n) start x → 8 * n < x + 8 * m.length →
      Heard m len T V base D.tail (8 * n + x % 8) prev rs →
      Heard m len T V base D start prev ((if k = .unexpectedEof then none else some (.error (.io k))) :: rs)

end Ccsds.Spec
