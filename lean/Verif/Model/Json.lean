import Verif.Model.Report
/-!
# The JSON reports: `ccsds framing --summary` and `ccsds info --format json`

`ccsds-cmd/src/frame.rs:156-158` and `ccsds-cmd/src/info.rs:160-163`. A text is the list of its characters.

The structures are serialized by `#[derive(Serialize)]` and printed by the crate `serde_json`, which are not in /repo. What is used of them: a structure is an object
of its fields in the order of their declaration, a tuple and a `Vec` are arrays, `None` is `null`, unsigned numbers are written in decimal; `to_string_pretty`
and `to_writer_pretty` indent by two spaces and escape strings as in `quoteChar`. Epochs and durations are serialized as the text that the crate `hifitime`
shows for them: parameters.
-/
namespace Ccsds.Report

mutual
/-- JSON values, as far as they occur. -/
inductive Json where
  | null
  | num (n : Nat)
  | str (t : Text)
  | arr (es : Elems)
  | obj (fs : Fields)
/-- The elements of an array. -/
inductive Elems where
  | nil
  | cons (v : Json) (es : Elems)
/-- The members of an object, in order. -/
inductive Fields where
  | nil
  | cons (key : Text) (v : Json) (fs : Fields)
end

/-- An array of these elements. -/
def Elems.of : List Json → Elems
  | [] => .nil
  | v :: vs => .cons v (Elems.of vs)

/-- An object with these members. -/
def Fields.of : List (Text × Json) → Fields
  | [] => .nil
  | (k, v) :: fs => .cons k v (Fields.of fs)

/-- A hexadecimal digit, as `serde_json` writes it. -/
def hexDigit (n : Nat) : Char := Nat.digitChar n

/-- One character of a string: `serde_json`'s `format_escaped_str_contents`. -/
def quoteChar (c : Char) : Text :=
  if c = '"' then ['\\', '"']
  else if c = '\\' then ['\\', '\\']
  else if c = '\n' then ['\\', 'n']
  else if c = '\r' then ['\\', 'r']
  else if c = '\t' then ['\\', 't']
  else if c.toNat = 8 then ['\\', 'b']
  else if c.toNat = 12 then ['\\', 'f']
  else if c.toNat < 32 then ['\\', 'u', '0', '0', hexDigit (c.toNat / 16), hexDigit (c.toNat % 16)]
  else [c]

/-- A string in quotes. -/
def quote (t : Text) : Text := '"' :: t.flatMap quoteChar ++ ['"']

/-- The line end and indentation before an element, member or closing bracket at depth `d`. -/
def newline (d : Nat) : Text := '\n' :: List.replicate (2 * d) ' '

mutual
/-- `serde_json`'s `PrettyFormatter`: frame.rs:157, info.rs:162; `d` is the depth. -/
def pretty (d : Nat) : Json → Text
  | .null => "null".toList
  | .num n => digits n
  | .str t => quote t
  | .arr .nil => ['[', ']']
  | .arr (.cons v es) => '[' :: newline (d + 1) ++ pretty (d + 1) v ++ prettyElems (d + 1) es ++ newline d ++ [']']
  | .obj .nil => ['{', '}']
  | .obj (.cons k v fs) => '{' :: newline (d + 1) ++ quote k ++ ": ".toList ++ pretty (d + 1) v ++ prettyFields (d + 1) fs ++ newline d ++ ['}']
/-- The elements after the first. -/
def prettyElems (d : Nat) : Elems → Text
  | .nil => []
  | .cons v es => ',' :: newline d ++ pretty d v ++ prettyElems d es
/-- The members after the first. -/
def prettyFields (d : Nat) : Fields → Text
  | .nil => []
  | .cons k v fs => ',' :: newline d ++ quote k ++ ": ".toList ++ pretty d v ++ prettyFields d fs
end

/-- frame.rs:18-27, 32-41: the counters, which both structures have -/
def tallyFields (t : Framing.Tally) : List (Text × Json) :=
  [("total_frames".toList, .num t.frames), ("total_bytes".toList, .num t.bytes), ("missing_frames".toList, .num t.missing), ("corrected".toList, .num t.corrected),
   ("uncorrectable".toList, .num t.uncorrectable), ("ok".toList, .num t.ok), ("error".toList, .num t.error), ("not_performed".toList, .num t.notPerformed)]

/-- frame.rs:16-28 `Info`, derived `Serialize` -/
def framingInfoJson (i : Framing.Info) : Json := .obj (.of (("vcid".toList, .num i.vcid.toNat) :: tallyFields i.tally))

/-- frame.rs:30-42 `Summary`, derived `Serialize` -/
def framingJsonValue (s : Framing.Summary) : Json := .obj (.of (tallyFields s.tally ++ [("vcids".toList, .arr (.of (s.vcids.map framingInfoJson)))]))

/-- frame.rs:156-158 `render_json_summary` -/
def framingJson (s : Framing.Summary) : Text := pretty 0 (framingJsonValue s)

/-- main.rs:478-481 the bytes of the file: the text in UTF-8. (All characters are ASCII, see `C89_ascii`.) -/
def framingJsonBytes (s : Framing.Summary) : List U8 := (framingJson s).map fun c => BitVec.ofNat 8 c.toNat

/-- An `Option<Epoch>` -/
def timeJson (showE : Epoch → Text) : Option Epoch → Json
  | none => .null
  | some e => .str (showE e)

/-- info.rs:58-65 `Summary`, derived `Serialize` -/
def infoSummaryJson (showE : Epoch → Text) (showD : Int → Text) (s : Info.ISummary) : Json :=
  .obj (.of [("total_packets".toList, .num s.total), ("missing_packets".toList, .num s.missing), ("first_packet_time".toList, timeJson showE s.first),
    ("last_packet_time".toList, timeJson showE s.last), ("duration".toList, .str (showD s.duration))])

/-- info.rs:67-72 `Info`, derived `Serialize` -/
def infoJsonValue (showE : Epoch → Text) (showD : Int → Text) (filename : Text) (i : Info.Info) : Json :=
  .obj (.of [("filename".toList, .str filename), ("summary".toList, infoSummaryJson showE showD i.summary),
    ("apids".toList, .arr (.of (i.apids.map fun a => .arr (.of [.num a.1.toNat, infoSummaryJson showE showD a.2]))))])

/-- info.rs:160-163: what is written to standard output -/
def infoJson (showE : Epoch → Text) (showD : Int → Text) (filename : Text) (i : Info.Info) : Text := pretty 0 (infoJsonValue showE showD filename i)

end Ccsds.Report
