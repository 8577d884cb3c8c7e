import Verif.Model.Json
import Verif.Model.Diff
import Verif.Model.Writer
/-!
# Standard output: `ccsds info` and `ccsds diff` as commands, and their texts in bytes

`std::io::Stdout` is a `LineWriter` on a `BufWriter` of 1024 bytes, modelled here after the standard library: complete lines are passed on at once, what follows the last line end
stays in the buffer, and at the end of the program the buffer is flushed, errors being ignored. (An output that is closed, `EBADF`, counts as one that takes everything.)
-/
namespace Ccsds

/-- `std::io::Stdout`: what is buffered, what has been taken by the operating system, and the results of the calls of `write` to come. -/
structure Stdout where
  buf : List U8
  out : List U8
  script : List WEv

namespace Stdout

/-- `LineWriter::new`: the capacity of its buffer -/
def CAPACITY : Nat := 1024

/-- At the start of the program. -/
def new (script : List WEv) : Stdout := ⟨[], [], script⟩

/-- `write_all` of the underlying `StdoutRaw` -/
def raw (s : Stdout) (bs : List U8) : Bool × Stdout :=
  let r := writeAll s.script bs
  (r.1, ⟨s.buf, s.out ++ r.2.1, r.2.2⟩)

/-- `BufWriter::flush_buf`: what was taken is removed from the buffer, also if it fails. -/
def flushBuf (s : Stdout) : Bool × Stdout :=
  let r := writeAll s.script s.buf
  (r.1, ⟨s.buf.drop r.2.1.length, s.out ++ r.2.1, r.2.2⟩)

/-- `BufWriter::write_all`, `write_all_cold` -/
def bufWrite (s : Stdout) (bs : List U8) : Bool × Stdout :=
  if s.buf.length + bs.length < CAPACITY then (true, { s with buf := s.buf ++ bs })
  else
    let r := if CAPACITY < s.buf.length + bs.length then s.flushBuf else (true, s)
    if !r.1 then (false, r.2)
    else if CAPACITY ≤ bs.length then r.2.raw bs
    else (true, { r.2 with buf := r.2.buf ++ bs })

/-- What follows the last line end. -/
def tail (bs : List U8) : List U8 := (bs.reverse.takeWhile (· ≠ 10#8)).reverse
/-- What precedes it, with it. -/
def lines (bs : List U8) : List U8 := bs.take (bs.length - (tail bs).length)

/-- `LineWriterShim::write_all` -/
def write (s : Stdout) (bs : List U8) : Bool × Stdout :=
  if 10#8 ∉ bs then
    let r := if s.buf.getLast? = some 10#8 then s.flushBuf else (true, s)
    if !r.1 then (false, r.2) else r.2.bufWrite bs
  else
    let r :=
      if s.buf = [] then s.raw (lines bs)
      else
        let r := s.bufWrite (lines bs)
        if !r.1 then (false, r.2) else r.2.flushBuf
    if !r.1 then (false, r.2) else r.2.bufWrite (tail bs)

/-- Texts written one after the other, up to the first that fails. -/
def writes (s : Stdout) : List (List U8) → Bool × Stdout
  | [] => (true, s)
  | p :: ps =>
    let r := s.write p
    if !r.1 then (false, r.2) else r.2.writes ps

/-- What has been taken when the program has ended: the buffer is flushed, whether that succeeds or not. -/
def exit (s : Stdout) : List U8 := s.flushBuf.2.out

end Stdout

namespace Report

/-- A text in UTF-8. -/
def utf8 (t : Text) : List U8 := t.flatMap fun c => (String.utf8EncodeChar c).map UInt8.toBitVec

/-- `{:w}` of a number: blanks in front, to at least `w` characters -/
def width (w : Nat) (t : Text) : Text := List.replicate (w - t.length) ' ' ++ t

/-- `{}` of an `i32` -/
def signed (i : Int) : Text := if i < 0 then '-' :: digits i.natAbs else digits i.natAbs

/-- `*left as i32 - *right as i32` (diff.rs:56): `as` takes the low 32 bits, the subtraction is checked in builds with overflow checks -/
def difference (b : Build) (l r : Nat) : Outcome Int :=
  let d := (BitVec.ofNat 32 l).toInt - (BitVec.ofNat 32 r).toInt
  if -2 ^ 31 ≤ d ∧ d < 2 ^ 31 then .ret d
  else if b.overflowChecks then .panic
  else .ret (BitVec.ofInt 32 d).toInt

/-- diff.rs:51-59 the rows of the table of counts, and whether all could be printed -/
def diffRows (b : Build) : List (U16 × Nat × Nat) → Text × Bool
  | [] => ([], true)
  | (a, l, r) :: rows =>
    match difference b l r with
    | .panic => ([], false)
    | .ret d =>
      let rest := diffRows b rows
      (width 4 (digits a.toNat) ++ "  ".toList ++ width 8 (digits l) ++ "  ".toList ++ width 8 (digits r) ++ "  ".toList ++ width 8 (signed d) ++ '\n' :: rest.1, rest.2)

/-- diff.rs:47-50, 60 the table of counts -/
def diffTable (b : Build) : Option (List (U16 × Nat × Nat)) → Text × Bool
  | none => ([], true)
  | some rows =>
    let r := diffRows b rows
    ("Apid counts:\n".toList ++ ("APID  Left      Right     Diff\n".toList ++ ("====  ========  ========  ========\n".toList ++ (r.1 ++ if r.2 then ['\n'] else []))), r.2)

/-- `[apid:{:4} seq:{:6} crc:{:10}]` -/
def diffKey (k : Diff.Key) : Text :=
  "[apid:".toList ++ width 4 (digits k.apid.toNat) ++ " seq:".toList ++ width 6 (digits k.seq.toNat) ++ " crc:".toList ++ width 10 (digits k.crc.toNat) ++ [']']

/-- `[                                   ]` -/
def diffNoKey : Text := '[' :: List.replicate 35 ' ' ++ [']']

/-- diff.rs:69-79 `print_left`, `print_right` -/
def diffLine : Diff.Line → Text
  | .left k => diffKey k ++ "  ".toList ++ diffNoKey ++ ['\n']
  | .right k => diffNoKey ++ "  ".toList ++ diffKey k ++ ['\n']

/-- diff.rs:68 -/
def diffRule : Text := "=====================================  ===================================".toList

/-- diff.rs:63-68 the headings -/
def diffHead (left right : Text) : Text :=
  '\n' :: ("left:  ".toList ++ left ++ '\n' :: ("right: ".toList ++ right ++ '\n' :: '\n' ::
  ("Present in left, but not right         Present in right, but not left\n".toList ++ (diffRule ++ ['\n']))))

/-- diff.rs:46-122 all that is printed, and whether it is printed without a panic -/
def diffText (b : Build) (left right : Text) (table : Option (List (U16 × Nat × Nat))) (lines : List Diff.Line) : Text × Bool :=
  let t := diffTable b table
  if t.2 then (t.1 ++ (diffHead left right ++ lines.flatMap diffLine), true) else (t.1, false)

end Report

namespace Cmd
variable {Path : Type} [DecidableEq Path]
open Report

/-- info.rs:14-18 `Format` -/
inductive InfoFormat where
  | text | json
  deriving DecidableEq

/-- info.rs:157-171 `info`, main.rs:376-380: its possible results: the status, and what standard output has taken. `name`: info.rs:151, the path as a text. JSON is written in pieces
(`serde_json::to_writer_pretty`). -/
inductive InfoCmd (b : Build) (τ : Epoch → Int) (showE : Epoch → Text) (showD : Int → Text) (sched : Path → List U8 → Reader) (name : Path → Text) (cds : Bool)
    (format : InfoFormat) (p : Path) (fs : FS Path) (script : List WEv) : Status → List U8 → Prop where
  | cannotOpen : fs p = none → InfoCmd b τ showE showD sched name cds format p fs script .error []
  | panicked {content : List U8} : fs p = some content → Info.Runs b τ cds (sched p content) none → InfoCmd b τ showE showD sched name cds format p fs script .panic []
  | text {content : List U8} {i : Info.Info} : fs p = some content → Info.Runs b τ cds (sched p content) (some i) → format = .text →
      InfoCmd b τ showE showD sched name cds format p fs script
        (if ((Stdout.new script).write (utf8 (infoText showE showD (name p) i))).1 then .ok else .error)
        ((Stdout.new script).write (utf8 (infoText showE showD (name p) i))).2.exit
  | json {content : List U8} {i : Info.Info} {pieces : List (List U8)} : fs p = some content → Info.Runs b τ cds (sched p content) (some i) → format = .json →
      pieces.flatten = utf8 (infoJson showE showD (name p) i) →
      InfoCmd b τ showE showD sched name cds format p fs script (if ((Stdout.new script).writes pieces).1 then .ok else .error) ((Stdout.new script).writes pieces).2.exit

/-- What `diff` prints: the table and the lines. -/
def diffParts : Diff.DResult → Option (Option (List (U16 × Nat × Nat)) × List Diff.Line)
  | .same t => some (t, [])
  | .differ t ls => some (t, ls)
  | _ => none

/-- diff.rs:9-128 `diff`, main.rs:413-417: its possible results. Everything is printed by `println!`, in pieces, and a failure to print is a panic. -/
inductive DiffCmd (b : Build) (crc : List U8 → U32) (sched : Path → List U8 → Reader) (name : Path → Text) (verbose : Bool) (left right : Path) (fs : FS Path)
    (script : List WEv) : Status → List U8 → Prop where
  | panicked : Diff.Runs crc (fs.files sched left) (fs.files sched right) verbose .panic → DiffCmd b crc sched name verbose left right fs script .panic []
  | refused {res : Diff.DResult} : Diff.Runs crc (fs.files sched left) (fs.files sched right) verbose res → res = .cannotOpen ∨ res = .noPackets →
      DiffCmd b crc sched name verbose left right fs script .error []
  | compared {res : Diff.DResult} {t : Option (List (U16 × Nat × Nat))} {ls : List Diff.Line} {pieces : List (List U8)} :
      Diff.Runs crc (fs.files sched left) (fs.files sched right) verbose res → diffParts res = some (t, ls) →
      pieces.flatten = utf8 (diffText b (name left) (name right) t ls).1 →
      DiffCmd b crc sched name verbose left right fs script
        (if !((Stdout.new script).writes pieces).1 || !(diffText b (name left) (name right) t ls).2 then .panic else if ls = [] then .ok else .error)
        ((Stdout.new script).writes pieces).2.exit

end Cmd
end Ccsds
