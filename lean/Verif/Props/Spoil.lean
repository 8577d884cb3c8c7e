import Verif.Props.Link
/-!
# C117: every data unit can be spoiled

`Spec.Transmitter.Spoiled` is not an empty condition: whatever a standard transmitter sends in a slot, errors in the check symbols alone can carry one of its interleaved
words out of reach of every code word (there are words at distance 32 or more from all of them).
-/
namespace Ccsds
open Spec

/-- Every message can be completed to a word that is at least 32 bytes away from every code word. -/
theorem C117_far (m : List U8) (hm : m.length = 223) : ∃ q : List U8, q.length = 32 ∧ ∀ w, ccsdsCode w → 32 ≤ dist (m ++ q) w := by
  have : Finite Gf := Finite.of_injective (fun a : Gf => a.coordinates.toFin) (fun a b h => Gf.ext (BitVec.eq_of_toFin_eq h))
  obtain ⟨q, hq, h⟩ := complete_word dualBasis (Gf.α ^ 11) beta_order 112 m hm fun j => if j = 31 then 1 else 0
  refine ⟨q, hq, fun w hw => ?_⟩
  refine agree_distance dualBasis (Gf.α ^ 11) beta_order 112 31 _ _ (by simp [hm, hq]) hw.1 (fun j hj => ?_) fun e => ?_
  · rw [h j (by omega), hw.2 j (by omega), if_neg (by omega)]
  · have h1 := h 31 (by decide)
    rw [e, hw.2 31 (by decide), if_pos rfl] at h1
    exact zero_ne_one h1

namespace Spec.Transmitter

/-- Whatever is sent in a slot can be received spoiled, with all of its bytes before the check symbols as sent. -/
theorem C117_spoil (t : Transmitter) (ht : t.Valid) (packets : List (List U8)) (v : BitVec 6) (n : Nat) (hfull : v ≠ 63 → (n + 1) * t.zoneSize ≤ packets.flatten.length) :
    ∃ rx, t.Spoiled (t.cadu packets v n) rx ∧ rx.take (4 + t.frameSize) = (t.cadu packets v n).take (4 + t.frameSize) := by
  have hfl := frame_length t ht packets v n hfull
  have hbl := block_length t ht packets v n hfull
  have hlen : t.fill + (t.frame packets v n).length = 223 * t.depth := by rw [hfl]; exact fill_frame t ht
  generalize hf : t.frame packets v n = f at *
  choose far hfarl hfar using fun i => C117_far (messageOf t.depth (List.replicate t.fill 0#8 ++ f) i) (by simp [messageOf])
  have hI := ht.depth
  let d := f ++ (List.range (32 * t.depth)).map fun j => (far (j % t.depth)).getD (j / t.depth) 0
  have hdl : d.length = t.blockSize := by simp [d, hfl, blockSize]
  have hdf : d.take t.frameSize = f := by simp only [d]; rw [← hfl, List.take_left]
  have hbf : (t.block packets v n).take t.frameSize = f := by
    unfold block
    rw [hf, ← hfl, List.take_left]
  have hpre : (marker ++ t.unrand d).take (4 + t.frameSize) = (t.cadu packets v n).take (4 + t.frameSize) := by
    have hm : marker.length = 4 := rfl
    rw [cadu_eq, ← hm, List.take_length_add_append, List.take_length_add_append, unrand_take, unrand_take, hdf, hbf]
  refine ⟨marker ++ t.unrand d, ⟨?_, ?_, 0, by omega, fun w hw => ?_⟩, hpre⟩
  · rw [cadu_eq, List.length_append, List.length_append, unrand_length, unrand_length, hdl, hbl]
  · have h6 : 6 ≤ t.frameSize := by unfold frameSize; omega
    have := congrArg (List.take 10) hpre
    rwa [List.take_take, List.take_take, Nat.min_eq_left (by omega)] at this
  · have e : (if t.randomized then randomize ((marker ++ t.unrand d).drop 4) else (marker ++ t.unrand d).drop 4) = d := by
      show t.unrand ((marker ++ t.unrand d).drop marker.length) = d
      rw [List.drop_left, unrand_unrand]
    rw [e]
    have := hfar 0 w hw
    have h2 := interleaved_codeword t.depth t.fill f far hlen 0 (by omega) (hfarl 0)
    have h3 : codeword t.depth (List.replicate t.fill 0 ++ d) 0 = messageOf t.depth (List.replicate t.fill 0#8 ++ f) 0 ++ far 0 := h2
    rw [h3]
    omega

/-- The first data unit of the example transmission of C117, spoiled. -/
example : ∃ rx, exRollTx.Befalls (exRollTx.cadu (exTxPackets 1) 1 0) (.spoiled rx) := by
  obtain ⟨rx, h, _⟩ := exRollTx.C117_spoil exRollTx_valid (exTxPackets 1) 1 0 (fun _ => by
    have := exTxPackets_fill 1 (by decide)
    have h1 : exTxSlots.count 1 ≠ 0 := by decide
    have h2 : exRollTx.zoneSize = 215 := rfl
    rw [h2, ← this]
    exact Nat.mul_le_mul_right _ (by omega))
  exact ⟨rx, h⟩

end Spec.Transmitter
end Ccsds
