import Verif.Model.Json
import Verif.Spec.Report
/-!
# Reading JSON

A reader of JSON texts (RFC 8259), written without reference to how the reports are produced. Left out, because it does not occur here: `true`, `false`, numbers with a sign,
a fraction or an exponent, and surrogate pairs in `\u` escapes; such texts are refused or read as single characters.
-/
namespace Ccsds.Spec.Json
open Ccsds.Report (Text Json Elems Fields)

/-- White space. -/
def isWs (c : Char) : Bool := c = ' ' || c = '\n' || c = '\r' || c = '\t'

/-- Without leading white space. -/
def ws (t : Text) : Text := t.dropWhile isWs

/-- The value of a hexadecimal digit. -/
def hex (c : Char) : Option Nat :=
  if c.isDigit then some (c.toNat - 48)
  else if 'a' ≤ c ∧ c ≤ 'f' then some (c.toNat - 87)
  else if 'A' ≤ c ∧ c ≤ 'F' then some (c.toNat - 55)
  else none

/-- What a backslash and `c` stand for. -/
def unescape (c : Char) : Option Char :=
  if c = '"' then some '"' else if c = '\\' then some '\\' else if c = '/' then some '/' else if c = 'b' then some (Char.ofNat 8)
  else if c = 'f' then some (Char.ofNat 12) else if c = 'n' then some '\n' else if c = 'r' then some '\r' else if c = 't' then some '\t' else none

/-- The rest of a string, after its opening quotes: its characters, and what follows the closing quotes. -/
def string : Text → Option (Text × Text)
  | [] => none
  | '"' :: r => some ([], r)
  | '\\' :: 'u' :: a :: b :: c :: d :: r => do
    let n := 4096 * (← hex a) + 256 * (← hex b) + 16 * (← hex c) + (← hex d)
    let (s, rest) ← string r
    some (Char.ofNat n :: s, rest)
  | '\\' :: c :: r => do
    let x ← unescape c
    let (s, rest) ← string r
    some (x :: s, rest)
  | c :: r => if c.toNat < 32 then none else do
    let (s, rest) ← string r
    some (c :: s, rest)

/-- A number at the beginning of the text (all its digits; no leading zeros), and what follows. -/
def number (t : Text) : Option (Nat × Text) :=
  let ds := t.takeWhile Char.isDigit
  if ds = [] ∨ (ds.head? = some '0' ∧ ds.length ≠ 1) then none
  else some (ds.foldl (fun n c => 10 * n + (c.toNat - 48)) 0, t.dropWhile Char.isDigit)

mutual
/-- A value at the beginning of the text, and what follows; `n` bounds the nesting and the numbers of elements and members. -/
def value : Nat → Text → Option (Json × Text)
  | 0, _ => none
  | n + 1, t =>
    match ws t with
    | [] => none
    | c :: r =>
      if c = '"' then (string r).map fun x => (.str x.1, x.2)
      else if c = '[' then
        if (ws r).head? = some ']' then some (.arr .nil, (ws r).drop 1) else (elements n r).map fun x => (.arr x.1, x.2)
      else if c = '{' then
        if (ws r).head? = some '}' then some (.obj .nil, (ws r).drop 1) else (members n r).map fun x => (.obj x.1, x.2)
      else if c = 'n' then if r.take 3 = ['u', 'l', 'l'] then some (.null, r.drop 3) else none
      else (number (c :: r)).map fun x => (.num x.1, x.2)
/-- Elements up to the closing bracket. -/
def elements : Nat → Text → Option (Elems × Text)
  | 0, _ => none
  | n + 1, t => do
    let (v, r) ← value n t
    match ws r with
    | [] => none
    | c :: r =>
      if c = ']' then some (.cons v .nil, r)
      else if c = ',' then (elements n r).map fun x => (.cons v x.1, x.2)
      else none
/-- Members up to the closing brace. -/
def members : Nat → Text → Option (Fields × Text)
  | 0, _ => none
  | n + 1, t =>
    match ws t with
    | [] => none
    | c :: r =>
      if c ≠ '"' then none else do
      let (k, r) ← string r
      match ws r with
      | [] => none
      | c :: r =>
        if c ≠ ':' then none else do
        let (v, r) ← value n r
        match ws r with
        | [] => none
        | c :: r =>
          if c = '}' then some (.cons k v .nil, r)
          else if c = ',' then (members n r).map fun x => (.cons k v x.1, x.2)
          else none
end

/-- The value a text stands for. -/
def parse (t : Text) : Option Json :=
  match value (t.length + 1) t with
  | some (v, r) => if ws r = [] then some v else none
  | none => none

/-! ## The reports -/

/-- The member of that name. -/
def Members.get (k : Text) : Fields → Option Json
  | .nil => none
  | .cons k' v fs => if k' = k then some v else Members.get k fs
def member (k : String) : Json → Option Json
  | .obj fs => Members.get k.toList fs
  | _ => none
/-- A number. -/
def nat : Json → Option Nat
  | .num n => some n
  | _ => none
/-- A text. -/
def text : Json → Option Text
  | .str t => some t
  | _ => none
/-- A text or `null`. -/
def textOrNull : Json → Option (Option Text)
  | .str t => some (some t)
  | .null => some none
  | _ => none
/-- The elements of an array. -/
def Elements.list : Elems → List Json
  | .nil => []
  | .cons v es => v :: Elements.list es
def items : Json → Option (List Json)
  | .arr es => some (Elements.list es)
  | _ => none

/-- The number that is the member of that name. -/
def count (v : Json) (k : String) : Option Nat := (member k v).bind nat

/-- The counters of `ccsds framing`. -/
def tally (v : Json) : Option Framing.Tally := do
  some { frames := ← count v "total_frames", bytes := ← count v "total_bytes", missing := ← count v "missing_frames", corrected := ← count v "corrected",
         uncorrectable := ← count v "uncorrectable", ok := ← count v "ok", error := ← count v "error", notPerformed := ← count v "not_performed" }

/-- A virtual channel and its counters. -/
def channel (v : Json) : Option Framing.Info := do
  let n ← count v "vcid"
  if n < 2 ^ 16 then some ⟨BitVec.ofNat 16 n, ← tally v⟩ else none

/-- The report of `ccsds framing`. -/
def framing (t : Text) : Option Framing.Summary := do
  let v ← parse t
  some ⟨← tally v, ← (← items (← member "vcids" v)).mapM channel⟩

/-- The counts, times and duration of `ccsds info`. -/
def shown (v : Json) : Option (Report.Shown × Text) := do
  some (⟨← count v "total_packets", ← count v "missing_packets", ← textOrNull (← member "first_packet_time" v), ← textOrNull (← member "last_packet_time" v)⟩,
    ← text (← member "duration" v))

/-- An APID with its counts. -/
def apid (v : Json) : Option (Nat × Report.Shown × Text) := do
  match ← items v with
  | [a, s] => some (← nat a, ← shown s)
  | _ => none

/-- The report of `ccsds info`: file name, the file's counts, the APIDs' counts. -/
def info (t : Text) : Option (Text × (Report.Shown × Text) × List (Nat × Report.Shown × Text)) := do
  let v ← parse t
  some (← text (← member "filename" v), ← shown (← member "summary" v), ← (← items (← member "apids" v)).mapM apid)

/-- The text of a file of ASCII characters. -/
def ascii (bs : List U8) : Option Text := if ∀ x ∈ bs, x.toNat < 128 then some (bs.map fun x => Char.ofNat x.toNat) else none

end Ccsds.Spec.Json
