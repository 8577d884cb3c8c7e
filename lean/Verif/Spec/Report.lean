import Verif.Model.Framing
import Verif.Model.Info
/-!
# Reading the text reports

What somebody (or a script) does who reads a report: find a line by its label, a column by its heading, and take the number that stands there.
Written without reference to how the reports are produced.
-/
namespace Ccsds.Spec.Report

/-- The pieces of a text between the separators `c`. -/
def split (c : Char) : List Char → List (List Char)
  | [] => [[]]
  | x :: xs => if x = c then [] :: split c xs else
    match split c xs with
    | [] => [[x]]
    | l :: ls => (x :: l) :: ls

/-- Without the blanks at both ends. -/
def trim (l : List Char) : List Char := ((l.dropWhile (· = ' ')).reverse.dropWhile (· = ' ')).reverse

/-- The words of a line. -/
def words (l : List Char) : List (List Char) := (split ' ' l).filter (· ≠ [])

/-- The number a text stands for. -/
def number (l : List Char) : Option Nat :=
  if trim l ≠ [] ∧ (trim l).all Char.isDigit then some ((trim l).foldl (fun n c => 10 * n + (c.toNat - 48)) 0) else none

/-- What follows the label in the line that begins with it. -/
def labelled (label : String) (ls : List (List Char)) : Option (List Char) :=
  (ls.find? fun l => label.toList.isPrefixOf l).map fun l => l.drop label.toList.length

/-- The number after a label. -/
def labelledNumber (label : String) (ls : List (List Char)) : Option Nat := (labelled label ls).bind number

/-- The eight tallies in the order `f "Frames" …` gives them. -/
def tally (f : String → Option Nat) (corrected uncorr notPerf : String) : Option Framing.Tally := do
  some ⟨← f "Frames", ← f "Bytes", ← f "Missing", ← f corrected, ← f uncorr, ← f "Ok", ← f "Error", ← f notPerf⟩

/-- The column with the given heading of a row: the first is 4 characters wide, the others 12. -/
def cell (headings : List (List Char)) (row : List Char) (name : String) : Option Nat :=
  let k := headings.idxOf name.toList
  if k = 0 then number (row.take 4) else number ((row.drop (4 + 12 * (k - 1))).take 12)

/-- One row of the table of `ccsds framing`. -/
def framingRow (headings : List (List Char)) (row : List Char) : Option Framing.Info := do
  some ⟨BitVec.ofNat 16 (← cell headings row "VCID"), ← tally (cell headings row) "Corrected" "Uncorr." "NotPerf."⟩

/-- The report of `ccsds framing`: the labelled totals, and the rows below the line of headings and the rule under it. -/
def framing (text : List Char) : Option Framing.Summary := do
  let ls := split '\n' text
  let totals ← tally (fun name => labelledNumber (name ++ ":") ls) "Corrected" "Uncorrectable" "NotPerformed"
  let table := ls.dropWhile fun l => !"VCID".toList.isPrefixOf l
  let rows := (table.drop 2).filter (· ≠ [])
  some ⟨totals, ← rows.mapM (framingRow (words (table.head?.getD [])))⟩

/-- A character that is written as itself in HTML. -/
def Safe (c : Char) : Prop := c ≠ '<' ∧ c ≠ '>' ∧ c ≠ '"' ∧ c ≠ '&' ∧ c ≠ '\'' ∧ c ≠ '`' ∧ c ≠ '='

/-- A nonempty text without blanks at its ends. -/
def Tight (t : List Char) : Prop := t ≠ [] ∧ t.head? ≠ some ' ' ∧ t.getLast? ≠ some ' '

/-- An ordinary text on one line. -/
def Plain (t : List Char) : Prop := Tight t ∧ '\n' ∉ t ∧ ∀ c ∈ t, Safe c

/-- Counts and times of a file or an APID as shown: a time may be missing. -/
structure Shown where
  total : Nat
  missing : Nat
  first : Option (List Char)
  last : Option (List Char)
  deriving DecidableEq

/-- What the report of `ccsds info` shows. -/
structure InfoReport where
  filename : List Char
  summary : Shown
  duration : List Char
  apids : List Nat
  rows : List (Nat × Shown)
  deriving DecidableEq

/-- A time, if one is shown. -/
def time (l : List Char) : Option (List Char) := if trim l = [] then none else some (trim l)

/-- One row of the table of `ccsds info`: APID in 6 columns, the times in 33 columns each from 8 and from 43, and from 79 on two numbers. -/
def infoRow (row : List Char) : Option (Nat × Shown) := do
  let apid ← number (row.take 6)
  match words (row.drop 79) with
  | [count, missing] => some (apid, ⟨← number count, ← number missing, time ((row.drop 8).take 33), time ((row.drop 43).take 33)⟩)
  | _ => none

/-- The numbers of a list with commas. -/
def apidList (l : List Char) : Option (List Nat) := if trim l = [] then some [] else (split ',' l).mapM number

/-- The report of `ccsds info`. -/
def info (text : List Char) : Option InfoReport := do
  match split '\n' text with
  | [] => none
  | filename :: ls =>
    let list ← labelled "APIDS:" ls
    let apids ← apidList list
    let table := ls.dropWhile fun l => !"APID ".toList.isPrefixOf l
    let rows ← ((table.drop 2).filter (· ≠ [])).mapM infoRow
    some ⟨filename, ⟨← labelledNumber "Count:" ls, ← labelledNumber "Missing:" ls, time (← labelled "First:" ls), time (← labelled "Last:" ls)⟩,
      trim (← labelled "Duration:" ls), apids, rows⟩

end Ccsds.Spec.Report
