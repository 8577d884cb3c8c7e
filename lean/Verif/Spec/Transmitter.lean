import Verif.Spec.Gf256
import Verif.Spec.Packets
import Verif.Spec.Pn
/-!
# Specification: a transmitter

What a spacecraft that follows the standards sends for a list of space packets: the packets back to back, cut into the data zones of MPDUs with first header pointers
(CCSDS 732.0-B section 4.1.4.2), in AOS transfer frames of one virtual channel with consecutive counters (section 4.1.2), each made a Reed–Solomon code block (131.0-B
section 4.3: (255, 223), interleaved, virtual fill, dual basis), pseudo-randomized (section 8.3), behind an attached sync marker (section 9.3).

Everything is a function that can be run. Nothing of the receiver's model is used.
-/
namespace Ccsds.Spec

/-! ## Reed–Solomon encoder -/

/-- `(x + ρ) · g` for a polynomial given by its coefficients, highest first. -/
def timesRoot (g : List Gf) (ρ : Gf) : List Gf := List.zipWith (· + ·) (g ++ [0]) (0 :: g.map (ρ * ·))

/-- The generator polynomial `∏ (x + β ^ j)`, `112 ≤ j < 144`, coefficients highest first (`x ^ 32` first). -/
def generator : List Gf := (List.range 32).foldl (fun g j => timesRoot g ((Gf.α ^ 11) ^ (112 + j))) [1]

/-- One step of the division by the generator polynomial: the remainder register `r` (32 coefficients, highest first) takes in the next coefficient of the message. -/
def divStep (r : List Gf) (m : Gf) : List Gf :=
  List.zipWith (· + ·) (r.tail ++ [0]) (generator.tail.map ((m + r.headD 0) * ·))

/-- The 32 check symbols of a message: the remainder of `message · x ^ 32` modulo the generator polynomial. -/
def rsParity (message : List (BitVec 8)) : List (BitVec 8) :=
  ((message.map dualBasis).foldl divStep (List.replicate 32 0)).map dualBasis.symm

/-- The message symbols of word `i` of a block of depth `I`. -/
def messageOf (I : Nat) (block : List (BitVec 8)) (i : Nat) : List (BitVec 8) := (List.range 223).map fun p => block.getD (p * I + i) 0

/-- The check symbols of a frame, of all `I` words in turn. `fill` zero bytes before the frame are only imagined (virtual fill). -/
def checkSymbols (I fill : Nat) (frame : List (BitVec 8)) : List (BitVec 8) :=
  (List.range (32 * I)).map fun j => (rsParity (messageOf I (List.replicate fill 0 ++ frame) (j % I))).getD (j / I) 0

/-! ## Pseudo-randomizer -/

/-- Byte `i` of the pseudo-random sequence. -/
def pnByte (i : Nat) : BitVec 8 := BitVec.ofNat 8 (natOfBits ((List.range 8).map fun j => pnBit (8 * i + j)))

def randomize (bs : List (BitVec 8)) : List (BitVec 8) := bs.mapIdx fun i b => b ^^^ pnByte i

/-! ## Frames -/

def bytes16 (x : BitVec 16) : List (BitVec 8) := [x.extractLsb' 8 8, x.extractLsb' 0 8]
def bytes24 (x : BitVec 24) : List (BitVec 8) := [x.extractLsb' 16 8, x.extractLsb' 8 8, x.extractLsb' 0 8]

/-- The attached sync marker. -/
def marker : List (BitVec 8) := [0x1a, 0xcf, 0xfc, 0x1d]

structure Transmitter where
  /-- The spacecraft and the signalling field of every frame. -/
  scid : BitVec 8
  signalling : BitVec 8
  /-- The counter of the first frame of each virtual channel. -/
  first : BitVec 6 → Nat
  /-- Insert zone and trailer (operational control field, error control field) of frame `n` of channel `v`. -/
  insertZone : BitVec 6 → Nat → List (BitVec 8)
  trailer : BitVec 6 → Nat → List (BitVec 8)
  /-- The data field of frame `n` of channel 63, which is reserved for fill: anything. -/
  idle : Nat → List (BitVec 8)
  /-- Sizes of insert zone, trailer and data zone. -/
  insertSize : Nat
  trailerSize : Nat
  zoneSize : Nat
  /-- Interleaving depth. -/
  depth : Nat
  randomized : Bool

namespace Transmitter

/-- The parameters make sense: sizes are as declared, a data zone holds between 1 and 2045 bytes (so that the pointer can name each of them), and the frame fits into the
code block. -/
structure Valid (t : Transmitter) : Prop where
  insert : ∀ v n, (t.insertZone v n).length = t.insertSize
  trailer : ∀ v n, (t.trailer v n).length = t.trailerSize
  idle : ∀ n, (t.idle n).length = 2 + t.zoneSize
  zone : 1 ≤ t.zoneSize ∧ t.zoneSize ≤ 2045
  depth : 1 ≤ t.depth ∧ t.depth ≤ 255
  fits : 6 + t.insertSize + 2 + t.zoneSize + t.trailerSize ≤ 223 * t.depth

/-- The size of a frame and of a code block; the virtual fill. -/
def frameSize (t : Transmitter) : Nat := 6 + t.insertSize + 2 + t.zoneSize + t.trailerSize
def blockSize (t : Transmitter) : Nat := t.frameSize + 32 * t.depth
def fill (t : Transmitter) : Nat := 223 * t.depth - t.frameSize

/-- The first header pointer of a data zone that carries the stream positions from `a` on: the offset of the first packet that starts in it, or all ones. -/
def pointer (t : Transmitter) (packets : List (List (BitVec 8))) (a : Nat) : Nat :=
  match (starts 0 packets).find? (fun s => a ≤ s) with
  | some s => if s < a + t.zoneSize then s - a else 0x7ff
  | none => 0x7ff

/-- The header of frame `n` of channel `v`: version 01, spacecraft, channel, counter, signalling field. -/
def primaryHeader (t : Transmitter) (v : BitVec 6) (n : Nat) : List (BitVec 8) :=
  bytes16 (1#2 ++ t.scid ++ v) ++ bytes24 (BitVec.ofNat 24 (t.first v + n)) ++ [t.signalling]

def mpduHeader (t : Transmitter) (packets : List (List (BitVec 8))) (n : Nat) : List (BitVec 8) :=
  bytes16 (0#5 ++ BitVec.ofNat 11 (t.pointer packets (n * t.zoneSize)))

/-- The data field of frame `n` of channel `v`, which carries the packets `packets`. -/
def dataField (t : Transmitter) (packets : List (List (BitVec 8))) (v : BitVec 6) (n : Nat) : List (BitVec 8) :=
  if v = 63 then t.idle n else t.mpduHeader packets n ++ (packets.flatten.drop (n * t.zoneSize)).take t.zoneSize

/-- The frame. -/
def frame (t : Transmitter) (packets : List (List (BitVec 8))) (v : BitVec 6) (n : Nat) : List (BitVec 8) :=
  t.primaryHeader v n ++ t.insertZone v n ++ t.dataField packets v n ++ t.trailer v n

/-- Its code block. -/
def block (t : Transmitter) (packets : List (List (BitVec 8))) (v : BitVec 6) (n : Nat) : List (BitVec 8) :=
  t.frame packets v n ++ checkSymbols t.depth t.fill (t.frame packets v n)

/-- Its channel access data unit. -/
def cadu (t : Transmitter) (packets : List (List (BitVec 8))) (v : BitVec 6) (n : Nat) : List (BitVec 8) :=
  marker ++ if t.randomized then randomize (t.block packets v n) else t.block packets v n

/-- `slots` names the channel of every frame sent; each with the number of the frame on its channel (`seen` are the slots before). -/
def number (seen : List (BitVec 6)) : List (BitVec 6) → List (BitVec 6 × Nat)
  | [] => []
  | v :: slots => (v, seen.count v) :: number (v :: seen) slots

/-- All that is sent when channel `v` carries `packets v` and the channels are multiplexed as `slots` says. -/
def cadus (t : Transmitter) (packets : BitVec 6 → List (List (BitVec 8))) (slots : List (BitVec 6)) : List (List (BitVec 8)) :=
  (number [] slots).map fun x => t.cadu (packets x.1) x.1 x.2

/-- `rx` is the data unit `tx` as a noisy channel may deliver it: the marker and the frame header (the first 10 bytes) are intact, and at most 16 bytes of each of the
interleaved code words are wrong. -/
structure Noisy (t : Transmitter) (tx rx : List (BitVec 8)) : Prop where
  length : rx.length = tx.length
  start : rx.take 10 = tx.take 10
  errors : ∀ i, i < t.depth → ((List.range tx.length).filter fun j => 4 ≤ j ∧ (t.fill + (j - 4)) % t.depth = i ∧ rx[j]? ≠ tx[j]?).length ≤ 16

end Transmitter
end Ccsds.Spec
