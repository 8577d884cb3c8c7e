import Verif.Model.Reader
/-!
# Specification vocabulary: the same stream, cut into reads differently
-/
namespace Ccsds.Spec

/-- One read result, cut into single bytes. Failures and empty reads stay what they are. -/
def single : Ev → List Ev
  | .data [] => [.data []]
  | .data (x :: c) => (x :: c).map fun y => .data [y]
  | .err k => [.err k]

/-- Two readers deliver the same bytes with the same failures and empty reads between the same bytes, and do the same for ever after; only how many
bytes each read has to offer may differ. -/
def SameStream (r r' : Reader) : Prop := r.script.flatMap single = r'.script.flatMap single ∧ r.tail = r'.tail

end Ccsds.Spec
