import Verif.Props.LinkFraming
import Verif.Props.ConcatFrames
/-!
# C128  A lossless recording shows no missing frames
-/
namespace Ccsds
open Spec Pipeline Spec.Transmitter

/-- The property in full: if no data unit is lost, `ccsds framing` reports none missing on any channel. -/
def C128_full : Prop := ∀ (b : Build) (k : Codec), Bounded k ccsdsCode → ∀ (t : Transmitter), t.Valid → ∀ (packets : BitVec 6 → List (List U8)) (slots : List (BitVec 6)),
  (∀ v, v ≠ 63 → slots.count v * t.zoneSize ≤ (packets v).flatten.length) → ∀ (fates : List Fate), List.Forall₂ t.Befalls (t.cadus packets slots) fates →
  (∀ f ∈ fates, f.heard = true) → ∀ (r : Reader), Records r (fates.flatMap Fate.bytes) → ∀ (a : Framing.Args), Suits a t → ∀ (workers : Nat) (s : Framing.Summary) (w : List (List U8)),
  Framing.Runs b k a workers r s w → ∀ i ∈ s.vcids, i.tally.missing = 0

theorem fatesOf_heard (slots : List (BitVec 6)) (fates : List Fate) (h : ∀ f ∈ fates, f.heard = true) (v : BitVec 6) : ∀ f ∈ fatesOf slots fates v, f.heard = true := by
  intro f hf
  unfold fatesOf at hf
  obtain ⟨x, hx, rfl⟩ := List.mem_map.1 hf
  exact h _ (List.of_mem_zip (List.mem_filter.1 hx).1).2

theorem lostInside_all (fs : List Fate) (h : ∀ f ∈ fs, f.heard = true) : lostInside fs = 0 := by
  unfold lostInside
  rw [List.countP_eq_zero]
  intro f hf
  have h1 := List.dropWhile_subset _ hf
  rw [List.mem_reverse] at h1
  have h2 := List.dropWhile_subset _ h1
  simp [h f h2]

/-- What holds: without overflow checks the number is 0 for a channel whose counter does not roll over, and 4294967295 for one whose counter does. -/
theorem C128_exact (b : Build) (hb : b.overflowChecks = false) (k : Codec) (hk : Bounded k ccsdsCode) (t : Transmitter) (ht : t.Valid) (packets : BitVec 6 → List (List U8))
    (slots : List (BitVec 6)) (hsent : ∀ v, v ≠ 63 → slots.count v * t.zoneSize ≤ (packets v).flatten.length) (hcount : ∀ v, v ≠ 63 → slots.count v ≤ 2 ^ 24)
    (fates : List Fate) (hfates : List.Forall₂ t.Befalls (t.cadus packets slots) fates) (hall : ∀ f ∈ fates, f.heard = true) (r : Reader) (hr : Records r (fates.flatMap Fate.bytes))
    (a : Framing.Args) (ha : Suits a t) (workers : Nat) (s : Framing.Summary) (w : List (List U8)) (hrun : Framing.Runs b k a workers r s w) :
    ∀ i ∈ s.vcids, ∃ v : BitVec 6, i.vcid = v.setWidth 16 ∧ i.tally.missing = if v ≠ 63 ∧ 2 ^ 24 < t.counter v 0 + slots.count v then 4294967295 else 0 := by
  intro i hi
  obtain ⟨_, h⟩ := C127_command b k hk t ht packets slots hsent (by rw [hb]; intro h; cases h) fates hfates r hr a ha workers
  obtain ⟨v, hv, _, h1, h2, h3⟩ := (h s w hrun).2.2.2.2 i hi
  refine ⟨v, hv, ?_⟩
  by_cases h63 : v = 63
  · rw [if_neg (fun h => h.1 h63)]; exact h1 h63
  · have hheard := fatesOf_heard slots fates hall v
    have h0 := lostInside_all _ hheard
    by_cases hroll : t.counter v 0 + slots.count v ≤ 2 ^ 24
    · rw [if_neg (fun h => by omega), h2 h63 hroll, h0]
    · rw [if_pos ⟨h63, by omega⟩]
      have h3 := h3 h63 (hcount v h63)
      have hlen : (fatesOf slots fates v).length = slots.count v := by
        refine fatesOf_length v slots fates ?_
        have := hfates.length_eq
        unfold cadus at this
        rw [List.length_map, number_length] at this
        omega
      have hr1 : t.rollAt v < (fatesOf slots fates v).length := by
        have : t.counter v 0 < 2 ^ 24 := Nat.mod_lt _ (by decide)
        rw [hlen]; unfold rollAt; omega
      have hr0 : 0 < t.rollAt v := by unfold rollAt counter; omega
      have hs : seam (fatesOf slots fates v) (t.rollAt v) = true := by
        rw [seam_iff]
        exact ⟨⟨_, List.getElem?_eq_getElem (by omega), hheard _ (List.getElem_mem _)⟩, _, List.getElem?_eq_getElem hr1, hheard _ (List.getElem_mem _)⟩
      have hc : crossed (fatesOf slots fates v) (t.rollAt v) = true := by
        rw [crossed_iff]
        exact ⟨⟨_, _, hr0, List.getElem?_eq_getElem (i := 0) (by omega), hheard _ (List.getElem_mem _)⟩, _, _, Nat.le_refl _, List.getElem?_eq_getElem hr1, hheard _ (List.getElem_mem _)⟩
      rw [hs, hc, h0] at h3
      simp only [↓reduceIte] at h3
      omega

/-- In both builds, for transmissions in which no counter rolls over. -/
theorem C128_partial (b : Build) (k : Codec) (hk : Bounded k ccsdsCode) (t : Transmitter) (ht : t.Valid) (packets : BitVec 6 → List (List U8))
    (slots : List (BitVec 6)) (hsent : ∀ v, v ≠ 63 → slots.count v * t.zoneSize ≤ (packets v).flatten.length) (hroll : ∀ v, v ≠ 63 → t.counter v 0 + slots.count v ≤ 2 ^ 24)
    (fates : List Fate) (hfates : List.Forall₂ t.Befalls (t.cadus packets slots) fates) (hall : ∀ f ∈ fates, f.heard = true) (r : Reader) (hr : Records r (fates.flatMap Fate.bytes))
    (a : Framing.Args) (ha : Suits a t) (workers : Nat) (s : Framing.Summary) (w : List (List U8)) (hrun : Framing.Runs b k a workers r s w) :
    ∀ i ∈ s.vcids, i.tally.missing = 0 := by
  intro i hi
  obtain ⟨_, h⟩ := C127_command b k hk t ht packets slots hsent (fun _ => hroll) fates hfates r hr a ha workers
  obtain ⟨v, hv, _, h1, h2, _⟩ := (h s w hrun).2.2.2.2 i hi
  by_cases h63 : v = 63
  · exact h1 h63
  · rw [h2 h63 (hroll v h63), lostInside_all _ (fatesOf_heard slots fates hall v)]

namespace RollEx

def args : Framing.Args := ⟨223, true, false, some 1, true, true, 0, none, 16, [], [], false⟩
/-- A file with the transmission in it. -/
def tape (t : Transmitter) (slots : List (BitVec 6)) : Reader := ⟨[.data (t.cadus exTxPackets slots).flatten], .eof⟩
theorem tape_records (t : Transmitter) (v : BitVec 6) (slots : List (BitVec 6)) :
    Records (tape t (v :: slots)) (((t.cadus exTxPackets (v :: slots)).map Fate.received).flatMap Fate.bytes) := by
  rw [received_bytes]
  refine records_plain _ _ (oneChunk_smooth _ ?_)
  unfold cadus
  rw [number, List.map_cons, List.flatten_cons]
  unfold cadu
  simp [marker]
theorem suits : Suits args exRollTx := ⟨rfl, rfl, ⟨1, rfl, rfl⟩, rfl⟩
theorem sent (v : BitVec 6) (hv : v ≠ 63) : exTxSlots.count v * exRollTx.zoneSize ≤ (exTxPackets v).flatten.length := Nat.le_of_eq (exTxPackets_fill v hv)
theorem befalls (cs : List (List U8)) : List.Forall₂ exRollTx.Befalls cs (cs.map .received) := by
  rw [List.forall₂_map_right_iff]
  exact List.forall₂_same.2 fun c _ => noisy_refl exRollTx c
theorem heard (cs : List (List U8)) : ∀ f ∈ cs.map Fate.received, f.heard = true := by
  intro f hf
  obtain ⟨c, _, rfl⟩ := List.mem_map.1 hf
  rfl

/-- The transmission of the example of C117, received without a single error: the counter of channel 1 goes from 16777215 to 0. -/
theorem lossless : ∃ s w, Framing.Runs ⟨false⟩ (bddCodec ccsdsCode) args 2 (tape exRollTx exTxSlots) s w ∧
    ∃ i ∈ s.vcids, i.vcid = 1 ∧ i.tally.missing = 4294967295 := by
  have hfb := befalls (exRollTx.cadus exTxPackets exTxSlots)
  have hhd := heard (exRollTx.cadus exTxPackets exTxSlots)
  have hrec : Records (tape exRollTx exTxSlots) (((exRollTx.cadus exTxPackets exTxSlots).map Fate.received).flatMap Fate.bytes) := tape_records _ _ _
  have hlen : ((exRollTx.cadus exTxPackets exTxSlots)).length = 4 := by unfold cadus; rw [List.length_map, number_length]; rfl
  have hcount : ∀ v : BitVec 6, v ≠ 63 → exTxSlots.count v ≤ 2 ^ 24 := exRoll_counts
  obtain ⟨h1, h2⟩ := C127_command ⟨false⟩ (bddCodec ccsdsCode) C113_distance.2 exRollTx exRollTx_valid exTxPackets exTxSlots sent (by intro h; cases h) _ hfb _ hrec args suits 2
  obtain ⟨s, w, hrun⟩ := h1 (by decide)
  have hx := C128_exact ⟨false⟩ rfl (bddCodec ccsdsCode) C113_distance.2 exRollTx exRollTx_valid exTxPackets exTxSlots sent hcount _ hfb hhd _ hrec args suits 2 s w hrun
  refine ⟨s, w, hrun, ?_⟩
  obtain ⟨i, hi, e⟩ := ((h2 s w hrun).2.2.2.1 1#6).2 ⟨by decide, by
    clear h1 h2 hrun hx hfb hhd hrec
    generalize exRollTx.cadus exTxPackets exTxSlots = cs at hlen
    match cs, hlen with
    | [c0, c1, c2, c3], _ => exact ⟨((1#6, 0), .received c0), by unfold heardSlots; simp [exTxSlots, number, Fate.heard], rfl⟩⟩
  refine ⟨i, hi, e, ?_⟩
  obtain ⟨v, hv, hm⟩ := hx i hi
  have hv1 : 1#6 = v := wide_inj (e.symm.trans hv)
  rw [hm, ← hv1, if_pos ⟨by decide, by
    have c1 : exRollTx.counter 1#6 0 = 16777215 := rfl
    have c2 : exTxSlots.count 1#6 = 2 := rfl
    rw [c1, c2]; decide⟩]

end RollEx

/-- It is false: the counter rolls over, nothing is lost, and 4294967295 frames are reported missing. -/
theorem C128_violated : ¬ C128_full := by
  intro h
  obtain ⟨s, w, hrun, i, hi, _, hm⟩ := RollEx.lossless
  have hrec : Records (RollEx.tape exRollTx exTxSlots) (((exRollTx.cadus exTxPackets exTxSlots).map Fate.received).flatMap Fate.bytes) := RollEx.tape_records _ _ _
  have := h ⟨false⟩ (bddCodec ccsdsCode) C113_distance.2 exRollTx exRollTx_valid exTxPackets exTxSlots RollEx.sent _ (RollEx.befalls _) (RollEx.heard _) _ hrec RollEx.args RollEx.suits 2 s w
    hrun i hi
  rw [this] at hm
  cases hm

/-- The transmission of the example of C127, complete: nothing is reported missing. -/
example (b : Build) (s : Framing.Summary) (w : List (List U8)) (h : Framing.Runs b (bddCodec ccsdsCode) FramingEx.args 2 (RollEx.tape FramingEx.tx FramingEx.slots) s w) :
    ∀ i ∈ s.vcids, i.tally.missing = 0 := by
  have hrec : Records (RollEx.tape FramingEx.tx FramingEx.slots) (((FramingEx.tx.cadus exTxPackets FramingEx.slots).map Fate.received).flatMap Fate.bytes) := RollEx.tape_records _ _ _
  refine C128_partial b (bddCodec ccsdsCode) C113_distance.2 FramingEx.tx FramingEx.tx_valid exTxPackets FramingEx.slots FramingEx.sent (fun v _ => FramingEx.counters v) _ ?_ (RollEx.heard _) _ hrec
    FramingEx.args FramingEx.suits 2 s w h
  rw [List.forall₂_map_right_iff]
  exact List.forall₂_same.2 fun c _ => noisy_refl FramingEx.tx c

end Ccsds
