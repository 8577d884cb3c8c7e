import Verif.Model.Framing
import Verif.Model.Info
/-!
# The text reports of `ccsds framing` and `ccsds info`

`ccsds-cmd/src/frame.rs:160-210` and `ccsds-cmd/src/info.rs:164-212`. A text is the list of its characters.

The templates are rendered by the crate `handlebars` (version 6), which is not in /repo. What is used of it: `{{ x }}` inserts the value `x` or what a
helper returns, with the characters `< > " & ' = \`` replaced as in `escape`; a string stands for itself, a number for its decimal digits, `null` for
nothing; a line with only `{{ #each … }}` or `{{/each}}` on it disappears with its line end; `{{~` removes the white space before it;
`{{ #if @last }}{{ else }}, {{ /if }}` writes `, ` between the elements. Epochs and durations are serialized as the text that the crate `hifitime`
shows for them: parameters.
-/
namespace Ccsds.Report

/-- The characters of a text. -/
abbrev Text := List Char

/-- `handlebars`' default escaping of one character. -/
def escapeChar (c : Char) : Text :=
  if c = '<' then "&lt;".toList
  else if c = '>' then "&gt;".toList
  else if c = '"' then "&quot;".toList
  else if c = '&' then "&amp;".toList
  else if c = '\'' then "&#x27;".toList
  else if c = '`' then "&#x60;".toList
  else if c = '=' then "&#x3D;".toList
  else [c]

/-- `handlebars`' default escaping. -/
def escape (t : Text) : Text := t.flatMap escapeChar

/-- A number as `serde_json` shows it: frame.rs:190, info.rs:178 `v.to_string()`. -/
def digits (n : Nat) : Text := Nat.toDigits 10 n

/-- frame.rs:186-203, info.rs:174-191 `left_pad`; `v.len()` counts bytes, which are characters in the texts used here. -/
def leftPad (num : Nat) (v : Text) : Text :=
  let num := if num < v.length then v.length else num
  List.replicate (num - v.length) ' ' ++ v

/-- `{{ lpad w v }}` -/
def lpad (w : Nat) (v : Text) : Text := escape (leftPad w v)

/-! ## `ccsds framing` -/

/-- frame.rs:172-182 one turn of the `each` block: a row of the table, with its line end -/
def framingRow (i : Framing.Info) : Text :=
  lpad 4 (digits i.vcid.toNat) ++ lpad 12 (digits i.tally.frames) ++ lpad 12 (digits i.tally.bytes) ++ lpad 12 (digits i.tally.missing) ++
  lpad 12 (digits i.tally.corrected) ++ lpad 12 (digits i.tally.uncorrectable) ++ lpad 12 (digits i.tally.ok) ++ lpad 12 (digits i.tally.error) ++
  lpad 12 (digits i.tally.notPerformed) ++ ['\n']

/-- frame.rs:160 -/
def framingRule1 : Text := "======================================================================================================".toList
/-- frame.rs:169, 171 -/
def framingRule2 : Text := "------------------------------------------------------------------------------------------------------".toList
/-- frame.rs:170 -/
def framingHeader : Text := "VCID  Frames      Bytes       Missing     Corrected   Uncorr.     Ok          Error       NotPerf.".toList

/-- frame.rs:160-210 `write_text_summary`: what is written -/
def framingText (s : Framing.Summary) : Text :=
  framingRule1 ++ '\n' ::
  ("Frames:        ".toList ++ escape (digits s.tally.frames) ++ '\n' ::
  ("Bytes:         ".toList ++ escape (digits s.tally.bytes) ++ [' '] ++ '\n' ::
  ("Missing:       ".toList ++ escape (digits s.tally.missing) ++ '\n' ::
  ("Corrected:     ".toList ++ escape (digits s.tally.corrected) ++ '\n' ::
  ("Uncorrectable: ".toList ++ escape (digits s.tally.uncorrectable) ++ '\n' ::
  ("Ok:            ".toList ++ escape (digits s.tally.ok) ++ '\n' ::
  ("Error:         ".toList ++ escape (digits s.tally.error) ++ '\n' ::
  ("NotPerformed:  ".toList ++ escape (digits s.tally.notPerformed) ++ '\n' ::
  (framingRule2 ++ '\n' ::
  (framingHeader ++ '\n' ::
  (framingRule2 ++ '\n' ::
  s.vcids.flatMap framingRow)))))))))))

/-! ## `ccsds info` -/

/-- info.rs:200 -/
def infoRule1 : Text := "===============================================================================================".toList
/-- info.rs:207, 209 -/
def infoRule2 : Text := "-----------------------------------------------------------------------------------------------".toList
/-- info.rs:208 -/
def infoHeader : Text := "APID    First                              Last                                 Count   Missing".toList

/-- An `Option<Epoch>` as JSON: its text, or `null`, which shows as nothing. -/
def showTime (showE : Epoch → Text) : Option Epoch → Text
  | none => []
  | some e => showE e

/-- info.rs:210 one turn of the `each` block, with its line end -/
def infoRow (showE : Epoch → Text) (a : U16 × Info.ISummary) : Text :=
  lpad 6 (digits a.1.toNat) ++ "  ".toList ++ lpad 33 (showTime showE a.2.first) ++ "  ".toList ++ lpad 33 (showTime showE a.2.last) ++ "   ".toList ++
  lpad 6 (digits a.2.total) ++ "   ".toList ++ lpad 7 (digits a.2.missing) ++ ['\n']

/-- info.rs:204 the list of APIDs -/
def infoApids : List U16 → Text
  | [] => []
  | [a] => escape (digits a.toNat)
  | a :: b :: l => escape (digits a.toNat) ++ ", ".toList ++ infoApids (b :: l)

/-- info.rs:173-212 `render_text`; `filename`: info.rs:151 -/
def infoText (showE : Epoch → Text) (showD : Int → Text) (filename : Text) (i : Info.Info) : Text :=
  escape filename ++ '\n' ::
  (infoRule1 ++ '\n' ::
  ("First:    ".toList ++ escape (showTime showE i.summary.first) ++ '\n' ::
  ("Last:     ".toList ++ escape (showTime showE i.summary.last) ++ [' '] ++ '\n' ::
  ("Duration: ".toList ++ escape (showD i.summary.duration) ++ '\n' ::
  ("APIDS:    ".toList ++ infoApids (i.apids.map (·.1)) ++ '\n' ::
  ("Count:    ".toList ++ escape (digits i.summary.total) ++ '\n' ::
  ("Missing:  ".toList ++ escape (digits i.summary.missing) ++ '\n' ::
  (infoRule2 ++ '\n' ::
  (infoHeader ++ '\n' ::
  (infoRule2 ++ '\n' ::
  i.apids.flatMap (infoRow showE)))))))))))

end Ccsds.Report
