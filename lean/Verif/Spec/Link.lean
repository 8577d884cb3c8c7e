import Verif.Spec.Transmitter
import Verif.Spec.ReedSolomon
/-!
# Specification: a link that loses and spoils data units

What can happen to the data units of `Spec.Transmitter` on the way, and which packets then still come out of the receiver.
-/
namespace Ccsds.Spec

/-- What becomes of a data unit: it is received with errors the code can repair (or none); or with more errors; or not at all. -/
inductive Fate where
  | received (rx : List (BitVec 8))
  | spoiled (rx : List (BitVec 8))
  | lost

namespace Fate

/-- What is received, if anything. -/
def bytes : Fate → List (List (BitVec 8))
  | received rx => [rx]
  | spoiled rx => [rx]
  | lost => []

def ok : Fate → Bool
  | received _ => true
  | _ => false

def heard : Fate → Bool
  | lost => false
  | _ => true

end Fate

namespace Transmitter

/-- `rx` is the data unit `tx` spoiled on the way: marker and frame header (the first 10 bytes) are intact, but one of the interleaved words is further than 16 bytes from every
code word. -/
structure Spoiled (t : Transmitter) (tx rx : List (BitVec 8)) : Prop where
  length : rx.length = tx.length
  start : rx.take 10 = tx.take 10
  beyond : ∃ i, i < t.depth ∧ ∀ w, ccsdsCode w →
    16 < dist (codeword t.depth (List.replicate t.fill 0 ++ if t.randomized then randomize (rx.drop 4) else rx.drop 4) i) w

/-- The data unit can have this fate. -/
def Befalls (t : Transmitter) (tx : List (BitVec 8)) : Fate → Prop
  | .received rx => t.Noisy tx rx
  | .spoiled rx => t.Spoiled tx rx
  | .lost => True

/-- The fates of the frames of channel `v`, in order. -/
def fatesOf (slots : List (BitVec 6)) (fates : List Fate) (v : BitVec 6) : List Fate := ((slots.zip fates).filter fun x => x.1 == v).map (·.2)

/-- The counter of frame `n` of channel `v`. -/
def counter (t : Transmitter) (v : BitVec 6) (n : Nat) : Nat := (t.first v + n) % 2 ^ 24

/-- The stream positions `s, ..., e - 1` of a channel whose frames have these fates were all sent, in frames that were received. -/
def whole (t : Transmitter) (fates : List Fate) (s e : Nat) : Bool :=
  decide (e ≤ fates.length * t.zoneSize) && fates.zipIdx.all fun x => x.1.ok || !(decide (s < (x.2 + 1) * t.zoneSize) && decide (x.2 * t.zoneSize < e))

/-- A frame with counter 0 begins inside the stream positions `s, ..., e - 1` of channel `v`, of which `count` frames are sent. -/
def straddles (t : Transmitter) (v : BitVec 6) (count s e : Nat) : Bool :=
  (List.range count).any fun n => decide (t.counter v n = 0) && decide (s < n * t.zoneSize) && decide (n * t.zoneSize < e)

/-- The packets of a channel that satisfy `P` of their first stream position and the one behind their last. -/
def those (P : Nat → Nat → Bool) (packets : List (List (BitVec 8))) : List (List (BitVec 8)) :=
  (((starts 0 packets).zip packets).filter fun x => P x.1 (x.1 + x.2.length)).map (·.2)

end Transmitter
end Ccsds.Spec
