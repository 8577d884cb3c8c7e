import Verif.Model.Basic
/-!
# `std::io::Read` as a script of system-call results

Not part of `/repo`: this is the environment the library reads from.  A reader is the list of results its successive
`read` calls will produce, followed by an endless tail.
-/
namespace Ccsds

/-- One result of a `read` system call. `data []` is `Ok(0)`. -/
inductive Ev where
  | data (bs : List U8)
  | err (k : IoKind)
  deriving DecidableEq, Repr

/-- What happens after the script is exhausted, forever. -/
inductive Tail where
  | eof
  | fail (code : Nat)
  deriving DecidableEq, Repr

/-- The `R: Read` of spacepacket/mod.rs `decode_packets` and framing/synchronizer.rs `Synchronizer::new`, as a script of the results of its `read` calls. -/
structure Reader where
  script : List Ev
  tail : Tail
  deriving DecidableEq, Repr

namespace Reader

/-- A reader that delivers `bs` (in one piece) and then end-of-file, such as a file or a slice. -/
def ofBytes (bs : List U8) : Reader := ⟨[.data bs], .eof⟩

/-- `Read::read` with a buffer of `n` bytes: at most `n` of the bytes available. -/
def read (r : Reader) (n : Nat) : Except IoKind (List U8) × Reader :=
  match r.script with
  | [] => match r.tail with
    | .eof => (.ok [], r)
    | .fail c => (.error (.other c), r)
  | .err k :: rest => (.error k, { r with script := rest })
  | .data bs :: rest =>
    if bs.length ≤ n then (.ok bs, { r with script := rest })
    else (.ok (bs.take n), { r with script := .data (bs.drop n) :: rest })

/-- Loop of `std`'s default `read_exact` on an `n`-byte buffer; `acc` are the bytes already stored.
Returns the error if any, the bytes stored in the buffer (all `n` on success) and the remaining reader. -/
def readExactGo (tail : Tail) : List Ev → Nat → List U8 → Option IoKind × List U8 × List Ev
  | script, 0, acc => (none, acc, script)
  | [], _ + 1, acc => match tail with
    | .eof => (some .unexpectedEof, acc, [])
    | .fail c => (some (.other c), acc, [])
  | .err k :: rest, n + 1, acc =>
    if k = .interrupted then readExactGo tail rest (n + 1) acc else (some k, acc, rest)
  | .data bs :: rest, n + 1, acc =>
    if bs = [] then (some .unexpectedEof, acc, rest)
    else if bs.length ≤ n + 1 then readExactGo tail rest (n + 1 - bs.length) (acc ++ bs)
    else (none, acc ++ bs.take (n + 1), .data (bs.drop (n + 1)) :: rest)

/-- `Read::read_exact` (default implementation). Result, bytes stored in the buffer, remaining reader. -/
def readExact (r : Reader) (n : Nat) : Option IoKind × List U8 × Reader :=
  let (e, got, script) := readExactGo r.tail r.script n []
  (e, got, { r with script := script })

end Reader
end Ccsds
