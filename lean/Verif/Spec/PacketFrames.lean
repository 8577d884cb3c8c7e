import Verif.Spec.Packets
import Verif.Model.Frame
/-!
# Specification: conditions on frames used by the statements about `packet_decoder`

Only the `Frame` and `Packet` record types of the model are used.
-/
namespace Ccsds.Spec

/-- A frame too short to hold an MPDU header. -/
def Short (izone trailer : Nat) (f : Frame) : Prop := f.data.length < 6 + izone + trailer + 2

/-- Uncorrectable or NotCorrected. -/
def Bad (f : Frame) : Prop := f.integrity = some .uncorrectable ∨ f.integrity = some .notCorrected

/-- The first header pointer of `f` does not name a position in its payload: "no packet starts here", "fill", or beyond. -/
def NoStart (izone trailer : Nat) (f : Frame) : Prop :=
  pointerOf izone f.data = 0x7ff ∨ pointerOf izone f.data = 0x7fe ∨ (payloadOf izone trailer f.data).length < pointerOf izone f.data

/-- The packet value that belongs to its bytes: header decoded from them, offset 0. -/
def Good (p : Packet) : Prop := PrimaryHeader.decode p.data = .ok p.header ∧ p.offset = 0

/-- The bytes from the first packet start of `f` to the end of the frames `fs` that follow it. -/
def bytesFrom (izone trailer : Nat) (f : Frame) (fs : List Frame) : List (BitVec 8) :=
  (payloadOf izone trailer f.data).drop (pointerOf izone f.data) ++ (fs.map (fun g => payloadOf izone trailer g.data)).flatten

/-- `Decoded frames qs`: what a receiver of one channel makes of the frames `frames`.

It ignores frames until one is intact and names the start of a packet (`skip`). From that position on it takes the bytes of this frame and of all intact
frames that follow it without loss (`fs`), up to a damaged frame or a loss: these bytes are the packets `qs` and an incomplete rest (`run`), and it goes on
with what follows as if from the start. But if it meets something that cannot be the header of a telemetry packet (`invalid`), it goes on with the frame after
the one in which that header was complete. -/
inductive Decoded (izone trailer : Nat) : List Frame → List (List (BitVec 8)) → Prop where
  | nil : Decoded izone trailer [] []
  | skip {f : Frame} {fs : List Frame} {qs : List (List (BitVec 8))} : Bad f ∨ NoStart izone trailer f → Decoded izone trailer fs qs →
      Decoded izone trailer (f :: fs) qs
  | run {f : Frame} {fs later : List Frame} {qs more : List (List (BitVec 8))} {rest : List (BitVec 8)} :
      ¬ Bad f → ¬ NoStart izone trailer f → (∀ g ∈ fs, ¬ Bad g ∧ g.missing = 0#32) →
      (∀ g, later.head? = some g → Bad g ∨ g.missing ≠ 0#32) →
      bytesFrom izone trailer f fs = qs.flatten ++ rest → (∀ q ∈ qs, IsPacket q) → NoPacket rest → ¬ BadHeader rest →
      Decoded izone trailer later more → Decoded izone trailer (f :: fs ++ later) (qs ++ more)
  | invalid {f : Frame} {fs later : List Frame} {qs more : List (List (BitVec 8))} {bad : List (BitVec 8)} :
      ¬ Bad f → ¬ NoStart izone trailer f → (∀ g ∈ fs, ¬ Bad g ∧ g.missing = 0#32) →
      bytesFrom izone trailer f fs = qs.flatten ++ bad → (∀ q ∈ qs, IsPacket q) → BadHeader bad →
      (fs ≠ [] → (bytesFrom izone trailer f fs.dropLast).length < qs.flatten.length + 6) →
      Decoded izone trailer later more → Decoded izone trailer (f :: fs ++ later) (qs ++ more)

instance (izone trailer : Nat) (f : Frame) : Decidable (Short izone trailer f) := by unfold Short; infer_instance
instance (f : Frame) : Decidable (Bad f) := by unfold Bad; infer_instance
instance (izone trailer : Nat) (f : Frame) : Decidable (NoStart izone trailer f) := by unfold NoStart; infer_instance

end Ccsds.Spec
