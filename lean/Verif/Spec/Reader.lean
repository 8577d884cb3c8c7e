import Verif.Model.Reader
/-!
# Specification vocabulary for readers
-/
namespace Ccsds

/-- The bytes carried by a `read` result. -/
def Ev.bytes : Ev → List U8
  | .data bs => bs
  | .err _ => []

/-- A `read` result after which `read_exact` carries on: some bytes, or `ErrorKind::Interrupted`. -/
def Ev.Good (e : Ev) : Prop := (∃ c, c ≠ [] ∧ e = .data c) ∨ e = .err .interrupted

/-- The bytes delivered by a list of `read` results. -/
def evBytes (es : List Ev) : List U8 := es.flatMap Ev.bytes

/-- The reader delivers exactly the bytes `bs`, cut into `read` results of any (non-zero) sizes, with any number of
`Interrupted` results in between, and then end of file. -/
def Reader.Delivers (r : Reader) (bs : List U8) : Prop :=
  (∀ e ∈ r.script, e.Good) ∧ evBytes r.script = bs ∧ r.tail = .eof

end Ccsds
