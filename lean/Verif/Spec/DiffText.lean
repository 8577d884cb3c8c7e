import Verif.Spec.Report
import Verif.Model.Diff
/-!
# Reading the report of `ccsds diff`

By columns, labels and headings, as somebody does who reads it. Written without reference to how it is produced.
-/
namespace Ccsds.Spec.Report
open Diff

/-- A number that may be negative. -/
def integer (l : List Char) : Option Int :=
  match trim l with
  | '-' :: ds => (number ds).map fun n : Nat => -(n : Int)
  | _ => (number l).map fun n : Nat => (n : Int)

/-- One of the two columns of a line: `[apid:…4 seq:……6 crc:………10]`, or brackets around blanks. -/
def diffCell (c : List Char) : Option (Option Key) :=
  if "[apid:".toList.isPrefixOf c then do
    some (some ⟨BitVec.ofNat 16 (← number ((c.drop 6).take 4)), BitVec.ofNat 16 (← number ((c.drop 15).take 6)), BitVec.ofNat 32 (← number ((c.drop 26).take 10))⟩)
  else if trim ((c.drop 1).take 35) = [] then some none else none

/-- One line: the left column is 37 characters wide, and two blanks follow. A packet stands on one side only. -/
def diffLine (row : List Char) : Option Line :=
  match diffCell (row.take 37), diffCell (row.drop 39) with
  | some (some k), some none => some (.left k)
  | some none, some (some k) => some (.right k)
  | _, _ => none

/-- One row of the table of counts: APID, left, right, difference. -/
def diffCount (row : List Char) : Option (Nat × Nat × Nat × Int) :=
  match words row with
  | [a, l, r, d] => do some (← number a, ← number l, ← number r, ← integer d)
  | _ => none

/-- What the report of `ccsds diff` shows; `counts` only if there is a table. -/
structure DiffReport where
  left : List Char
  right : List Char
  counts : Option (List (Nat × Nat × Nat × Int))
  lines : List Line
  deriving DecidableEq

/-- The table of counts, if the report begins with one: below its heading, up to the empty line. -/
def diffTable (ls : List (List Char)) : Option (Option (List (Nat × Nat × Nat × Int))) :=
  if ls.head? = some "Apid counts:".toList then (((ls.drop 3).takeWhile (· ≠ [])).mapM diffCount).map some else some none

/-- The report of `ccsds diff`. -/
def diff (text : List Char) : Option DiffReport := do
  let ls := split '\n' text
  let body := (ls.dropWhile fun l => !"=====================================".toList.isPrefixOf l).drop 1
  some ⟨← labelled "left:  " ls, ← labelled "right: " ls, ← diffTable ls, ← (body.filter (· ≠ [])).mapM diffLine⟩

end Ccsds.Spec.Report
