import Verif.Props.Recording
import Verif.Props.StreamingPipeline
import Verif.Props.Streaming
import Verif.Props.Python
/-!
# Concrete cases: the Reed–Solomon stage, codes, beginnings of streams

Theorems that have hypotheses and are not applied beside their proof, applied to concrete data that meets them. Where `example` is followed directly by `:=`, its statement is that of
the theorem at these arguments.
-/
namespace Ccsds.Cases.More
open Spec Pipeline RsStage

/-! ## C43: two frames, a job that gives them back -/

def f0 : Frame := ⟨⟨1, 157, 1, 5⟩, 0, none, [1, 2, 3]⟩
def f1 : Frame := ⟨⟨1, 157, 2, 9⟩, 0, none, [4]⟩

example : ∃ n t, Steps ⟨4, 2⟩ Outcome.ret [f0, f1] n State.init t ∧ t.cons = .ended ∧ t.got.map Outcome.ret = [f0, f1].map Outcome.ret ∧ n ≤ 22 := by
  obtain ⟨n, t, h1, h2, h3⟩ := C43_completes ⟨4, 2⟩ (by decide) Outcome.ret [f0, f1] (by intro f _ h; cases h) State.init .init (by decide)
  exact ⟨n, t, h1, h2, h3, C43_finite ⟨4, 2⟩ Outcome.ret [f0, f1] n t h1⟩

example : ∃ t, Step ⟨4, 2⟩ Outcome.ret [f0, f1] State.init t := by
  rcases C43_no_deadlock ⟨4, 2⟩ (by decide) Outcome.ret [f0, f1] State.init .init rfl with ⟨t, h, _⟩ | h
  · exact ⟨t, h⟩
  · obtain ⟨e, _⟩ := h
    cases e

/-! ## C41, C71: the block of 255 sevens is a code word, and so is that of 255 zeros -/

example : RS.perform (bddCodec ccsdsCode) ⟨true, false, 1, 32, true, 0⟩ (List.replicate 255 7#8) = .ret (.ok (.ok, List.replicate 223 7#8)) := by
  have := C41_partial (bddCodec ccsdsCode) ccsdsCode C113_distance.2 ⟨true, false, 1, 32, true, 0⟩ (List.replicate 255 7#8) rfl (by decide) (by decide) rfl (by rw [List.length_replicate]; rfl)
    (by
      intro i hi
      have h1 : (1 : U8).toNat = 1 := rfl
      rw [h1] at hi
      have hi : i = 0 := by omega
      have : codeword 1 (List.replicate 255 7#8) 0 = List.replicate 255 7#8 := by decide +kernel
      rw [hi, List.replicate_zero, List.nil_append, h1, this]
      exact C113_constant 7)
  rw [this, List.length_replicate]
  rfl

example : 33 ≤ dist (List.replicate 255 7#8) (List.replicate 255 0#8) :=
  rsCode_distance dualBasis (Gf.α ^ 11) beta_order 112 _ _ (C113_constant 7) (C113_constant 0) (by
    intro e
    have := congrArg (fun l => l.getD 0 0#8) e
    revert this
    decide +kernel)

/-! ## C68: two groups are complete when a third begins; the packets of the first frames -/

def pk (fl : U8) (n : U16) (a : U16) : Packet := ⟨⟨0, 0, true, a, fl, n, 0⟩, [0x0d, 0x59, 0, 0, 0, 0, 0], 0⟩

example (more : List Packet) : ∃ s', Takes PacketGroupIter.next (PacketGroupIter.new ([pk 1 0 7, pk 2 1 7, pk 3 0 8] ++ more)) [.ok ⟨7, [pk 1 0 7, pk 2 1 7]⟩] s' :=
  C68_collect_groups [pk 1 0 7, pk 2 1 7, pk 3 0 8] more [.ok ⟨7, [pk 1 0 7, pk 2 1 7]⟩] (.ok ⟨8, [pk 3 0 8]⟩) ⟨[], none, false⟩
    (.cons (s' := ⟨[], some (pk 3 0 8), false⟩) rfl (.cons rfl .nil))

/-! ## C70: a Python iterator over a list of packets -/

/-- `__next__` of an iterator over a list. -/
inductive Pops : List Packet → Outcome (Option Packet × List Packet) → Prop where
  | nil : Pops [] (.ret (none, []))
  | cons {p : Packet} {ps : List Packet} : Pops (p :: ps) (.ret (some p, ps))

example : ∃ e, Py.Loops (Py.GroupsNext Pops) ⟨[pk 1 0 7, pk 2 1 7, pk 3 0 8], none, false⟩ [⟨7, [pk 1 0 7, pk 2 1 7]⟩, ⟨8, [pk 3 0 8]⟩] (some e) :=
  C70_lazy Pops [pk 1 0 7, pk 2 1 7, pk 3 0 8] [] [] [pk 1 0 7, pk 2 1 7, pk 3 0 8] (.step .cons (.step .cons (.step .cons (.done .nil)))) .nil
    [⟨7, [pk 1 0 7, pk 2 1 7]⟩, ⟨8, [pk 3 0 8]⟩] ⟨[], none, true⟩
    (.step (s' := ⟨[], some (pk 3 0 8), false⟩) rfl (.step (s' := ⟨[], none, false⟩) rfl (.done rfl)))

/-! ## C114: the transmitter of C127's example, whose channel 1 sends four frames; only the first packet is complete then -/

open Spec.Transmitter in
example (b : Build) (r : Reader) (hr : Smooth r (FramingEx.tx.cadus exTxPackets FramingEx.slots).flatten) :=
  C114_received b (bddCodec ccsdsCode) C113_distance.2 FramingEx.tx FramingEx.tx_valid exTxPackets exTxPackets_packets FramingEx.slots (by decide) FramingEx.sent
    (fun v => FramingEx.counters v) (FramingEx.tx.cadus exTxPackets FramingEx.slots) (List.forall₂_same.2 fun c _ => noisy_refl _ c) [] [] nothing_in_nil nothing_in_nil
    (FramingEx.tx.cadus exTxPackets FramingEx.slots).flatten (by rw [List.nil_append, List.append_nil]) r hr ⟨1, 115, true, true⟩ rfl rfl rfl ⟨4, 2⟩

/-! ## C118: a complete recording of it -/

open Spec.Transmitter in
example (b : Build) (r : Reader) (hr : Smooth r (FramingEx.fates.flatMap Fate.bytes).flatten) :
    ∃ ps, Gives b (bddCodec ccsdsCode) FramingEx.tx ⟨1, 115, true, true⟩ ⟨4, 2⟩ r ps :=
  gives_some C113_distance.2 ⟨FramingEx.tx_valid, exTxPackets_packets, FramingEx.sent, fun v _ => FramingEx.tape_count v, fun _ v _ => FramingEx.counters v, rfl, rfl, rfl⟩
    FramingEx.befalls (by
      intro v _ n f g e1 _ _ h
      rcases FramingEx.tape_noticed v n with h' | h'
      · exact absurd h h'
      · exfalso
        have := (List.getElem?_eq_some_iff.1 e1).1
        have hl := fatesOf_length v FramingEx.slots FramingEx.fates rfl
        have h1 : FramingEx.slots.count v ≤ FramingEx.slots.length := List.count_le_length
        have h2 : FramingEx.slots.length = 5 := rfl
        omega) (records_plain r _ hr) (by decide)

/-! ## C68: whatever follows the first two data units of that transmitter, the first frame comes out -/

namespace Begin
open Spec.Transmitter FramingEx

def twoFates : List Fate := [.received (unit 1 0), .received (unit 1 1)]

theorem two_befall : List.Forall₂ tx.Befalls (tx.cadus exTxPackets [1, 1]) twoFates := by
  have hn : number [] [1, 1] = [(1#6, 0), (1#6, 1)] := by decide
  unfold cadus
  rw [hn]
  simp only [List.map_cons, List.map_nil]
  unfold twoFates unit
  exact .cons (noisy_refl tx _) (.cons (noisy_refl tx _) .nil)

theorem two_count (v : BitVec 6) : ([1, 1] : List (BitVec 6)).count v ≤ slots.count v := by
  by_cases h : v = 1#6
  · rw [h]; decide
  · have : ([1, 1] : List (BitVec 6)).count v = 0 := by
      rw [List.count_eq_zero]
      intro hm
      simp only [List.mem_cons, List.not_mem_nil, or_false] at hm
      rcases hm with e | e <;> exact h e
    omega

example (b : Build) (T : List U8) (r' : Reader) (hr' : Smooth r' (unit 1 0 ++ unit 1 1 ++ T)) (s' : RsStage.State)
    (h' : Runs b (bddCodec ccsdsCode) ⟨true, some (⟨1, 115, true, true⟩, ⟨4, 2⟩), 140⟩ r' s') (he' : s'.cons = .ended) :
    ∃ g, s'.got.head? = some g ∧ g.data = tx.frame (exTxPackets 1#6) 1#6 0 := by
  obtain ⟨r, hr⟩ := exists_smooth (unit 1 0 ++ unit 1 1)
  have hrec : Records r (twoFates.flatMap Fate.bytes) := by
    have : twoFates.flatMap Fate.bytes = [unit 1 0, unit 1 1] := rfl
    rw [this]
    exact records_plain r _ (by simpa using hr)
  obtain ⟨hex, hall⟩ := C127_frames b (bddCodec ccsdsCode) C113_distance.2 tx tx_valid exTxPackets [1, 1]
    (fun v hv => Nat.le_trans (Nat.mul_le_mul_right _ (two_count v)) (sent v hv)) (fun _ v _ => Nat.le_trans (Nat.add_le_add_left (two_count v) _) (counters v)) twoFates two_befall r hrec
    ⟨1, 115, true, true⟩ rfl rfl ⟨4, 2⟩
  obtain ⟨s, hs, hend⟩ := hex (by decide)
  obtain ⟨hshow, _, _⟩ := hall s hs hend
  have hpre := C68_pipeline_rs b (bddCodec ccsdsCode) ⟨true, some (⟨1, 115, true, true⟩, ⟨4, 2⟩), 140⟩ r r' (unit 1 0 ++ unit 1 1) T hr hr' s s' hs h' hend he'
  have hh : heardSlots [1, 1] twoFates = [((1#6, 0), .received (unit 1 0)), ((1#6, 1), .received (unit 1 1))] := by
    unfold heardSlots twoFates
    generalize unit 1 0 = c0
    generalize unit 1 1 = c1
    rfl
  rw [hh] at hshow
  generalize s.got = gs at hshow hpre
  cases hshow with
  | @cons _ g0 _ gs h0 h1 =>
    cases h1 with
    | @cons _ g1 _ gs h1 h2 =>
      cases h2
      obtain ⟨Z, hZ⟩ := hpre
      refine ⟨g0, by rw [← hZ]; rfl, ?_⟩
      exact h0.sent (show ¬ (1#6 : BitVec 6) = 63 by decide) (by rw [usable_received]; rfl)

end Begin

end Ccsds.Cases.More
