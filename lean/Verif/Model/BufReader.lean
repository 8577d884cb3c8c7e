import Verif.Model.Reader
/-!
# `std::io::BufReader`, as used by `ccsds-cmd/src/main.rs` (lines 40-75) and `ccsds-lib/src/spacepacket/merge.rs` (line 93-97)

Not part of `/repo`: modelled after the standard library. All other models read from `Reader` directly; `Props.Chunks` shows that a `BufReader` in between
changes nothing they can observe. `Seek` (merge.rs:173) discards the buffer and moves the file, and is part of `Merger.emit`.
-/
namespace Ccsds

/-- The standard library's `default_read_exact` on anything with a `read`: `Exact read s n acc (err, got, s')` where `acc` has been stored before. -/
inductive Exact {S : Type} (read : S → Nat → Except IoKind (List U8) × S) : S → Nat → List U8 → Option IoKind × List U8 × S → Prop where
  | full {s : S} {acc : List U8} : Exact read s 0 acc (none, acc, s)
  | eof {s s' : S} {n : Nat} {acc : List U8} : read s (n + 1) = (.ok [], s') → Exact read s (n + 1) acc (some .unexpectedEof, acc, s')
  | more {s s' : S} {n : Nat} {acc : List U8} {x : U8} {c : List U8} {out : Option IoKind × List U8 × S} : read s (n + 1) = (.ok (x :: c), s') →
      Exact read s' (n + 1 - (x :: c).length) (acc ++ x :: c) out → Exact read s (n + 1) acc out
  | again {s s' : S} {n : Nat} {acc : List U8} {out : Option IoKind × List U8 × S} : read s (n + 1) = (.error .interrupted, s') →
      Exact read s' (n + 1) acc out → Exact read s (n + 1) acc out
  | fail {s s' : S} {n : Nat} {acc : List U8} {k : IoKind} : read s (n + 1) = (.error k, s') → k ≠ .interrupted → Exact read s (n + 1) acc (some k, acc, s')

/-- `BufReader<R>`: what is buffered and not yet consumed, and the inner reader. -/
structure BufReader where
  capacity : Nat
  buf : List U8
  inner : Reader

namespace BufReader

/-- `BufReader::new`: 8 KiB -/
def new (r : Reader) : BufReader := ⟨8192, [], r⟩

/-- `BufReader::with_capacity` -/
def withCapacity (cap : Nat) (r : Reader) : BufReader := ⟨cap, [], r⟩

/-- `Read::read`: large reads bypass an empty buffer; otherwise the buffer is filled if it is empty, and read from. -/
def read (s : BufReader) (n : Nat) : Except IoKind (List U8) × BufReader :=
  if s.buf.isEmpty && decide (s.capacity ≤ n) then
    match s.inner.read n with
    | (x, r) => (x, { s with inner := r })
  else if s.buf.isEmpty then
    match s.inner.read s.capacity with
    | (.error k, r) => (.error k, { s with inner := r })
    | (.ok c, r) => (.ok (c.take n), { s with buf := c.drop n, inner := r })
  else (.ok (s.buf.take n), { s with buf := s.buf.drop n })

/-- `Read::read_exact`: from the buffer if it holds enough, otherwise the default loop. -/
inductive ReadsExact (s : BufReader) (n : Nat) : Option IoKind × List U8 × BufReader → Prop where
  | buffered : n ≤ s.buf.length → ReadsExact s n (none, s.buf.take n, { s with buf := s.buf.drop n })
  | loop {out : Option IoKind × List U8 × BufReader} : s.buf.length < n → Exact read s n [] out → ReadsExact s n out

end BufReader
end Ccsds
