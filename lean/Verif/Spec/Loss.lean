import Verif.Spec.PacketFrames
/-!
# Specification: frames of one channel on a lossy link

Only the `Frame` record type of the model is used.
-/
namespace Ccsds.Spec

/-- What becomes of a frame the sender sent with the data field `d` (frame header, insert zone, MPDU, trailer): it arrives as sent; or it arrives, but damaged
beyond repair; or not at all. `stray`: not a frame of this channel, but one damaged so that it now claims to belong to it. -/
inductive Event where
  | ok (d : List (BitVec 8))
  | damaged (d : List (BitVec 8))
  | lost (d : List (BitVec 8))
  | stray

/-- The frame data the sender sent, if the event concerns a frame of this channel. -/
def Event.sent : Event → List (List (BitVec 8))
  | .ok d => [d]
  | .damaged d => [d]
  | .lost d => [d]
  | .stray => []

def Event.isOk : Event → Bool
  | .ok _ => true
  | _ => false

/-- How much of the packet stream the frame of the event carries. -/
def Event.size (izone trailer : Nat) : Event → Nat
  | .ok d => (payloadOf izone trailer d).length
  | .damaged d => (payloadOf izone trailer d).length
  | .lost d => (payloadOf izone trailer d).length
  | .stray => 0

/-- All of the stream positions `s, ..., e - 1` arrive, nothing being wrong in between: every event that touches the inside of this range is an intact frame, and the
events reach up to `e`. The events begin at position `pos`. -/
def Undisturbed (izone trailer s e : Nat) : Nat → List Event → Prop
  | pos, [] => e ≤ pos
  | pos, v :: vs => (v.isOk = true ∨ ¬ (s < pos + v.size izone trailer ∧ pos < e)) ∧ Undisturbed izone trailer s e (pos + v.size izone trailer) vs

instance (izone trailer s e : Nat) : ∀ (vs : List Event) (pos : Nat), Decidable (Undisturbed izone trailer s e pos vs)
  | [], pos => inferInstanceAs (Decidable (e ≤ pos))
  | v :: vs, pos =>
    have := instDecidableUndisturbed izone trailer s e vs (pos + v.size izone trailer)
    inferInstanceAs (Decidable ((v.isOk = true ∨ ¬ (s < pos + v.size izone trailer ∧ pos < e)) ∧ Undisturbed izone trailer s e (pos + v.size izone trailer) vs))

/-- Of the packets, the first of which starts at position `s`, those whose bytes all arrive undisturbed; the events `vs` begin at position `pos`. -/
def survivors (izone trailer : Nat) (vs : List Event) (pos : Nat) : Nat → List (List (BitVec 8)) → List (List (BitVec 8))
  | _, [] => []
  | s, q :: qs => (if Undisturbed izone trailer s (s + q.length) pos vs then [q] else []) ++ survivors izone trailer vs pos (s + q.length) qs

/-- What the receiver knows of the frame before: nothing (there was none, or it is damaged), or it was intact and the next one sent follows it, or some were lost since. -/
inductive Link where
  | unknown | unbroken | broken
  deriving DecidableEq

/-- The frames of the channel that are received: intact ones carry the data sent, and after an intact frame report whether frames are missing between; damaged ones are
marked as such (they can carry any data, and report any number of missing frames). -/
inductive Arrives (izone trailer : Nat) : Link → List Event → List Frame → Prop where
  | nil {l : Link} : Arrives izone trailer l [] []
  | ok {l : Link} {d : List (BitVec 8)} {f : Frame} {vs : List Event} {fs : List Frame} : f.data = d → ¬ Bad f → (l = .unbroken → f.missing = 0#32) →
      (l = .broken → f.missing ≠ 0#32) → Arrives izone trailer .unbroken vs fs → Arrives izone trailer l (.ok d :: vs) (f :: fs)
  | damaged {l : Link} {d : List (BitVec 8)} {f : Frame} {vs : List Event} {fs : List Frame} : Bad f → ¬ Short izone trailer f →
      Arrives izone trailer .unknown vs fs → Arrives izone trailer l (.damaged d :: vs) (f :: fs)
  | lost {l : Link} {d : List (BitVec 8)} {vs : List Event} {fs : List Frame} :
      Arrives izone trailer (if l = .unknown then .unknown else .broken) vs fs → Arrives izone trailer l (.lost d :: vs) fs
  | stray {l : Link} {f : Frame} {vs : List Event} {fs : List Frame} : Bad f → ¬ Short izone trailer f →
      Arrives izone trailer .unknown vs fs → Arrives izone trailer l (.stray :: vs) (f :: fs)

end Ccsds.Spec
