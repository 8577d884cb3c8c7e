import Verif.Proofs.Loss
import Verif.Props.EndToEnd
import Verif.Props.PacketSemantics
/-!
# C82: lost and damaged frames cost exactly the packets they touch
-/
namespace Ccsds
open Spec FramedPackets

theorem placed_of_framing {izone trailer : Nat} {tail : List U8} {all : List (List U8)} {vs : List Event}
    (h : Framing izone trailer tail all (vs.flatMap (·.sent))) : Placed izone trailer (starts tail.length all) 0 vs := by
  have key : ∀ (todo done : List Event), vs = done ++ todo →
      Placed izone trailer (starts tail.length all) (done.map (Event.size izone trailer)).sum todo := by
    intro todo
    induction todo with
    | nil => intros; trivial
    | cons v todo ih =>
      intro done e
      have hlen : ∀ l : List Event, ((l.flatMap (·.sent)).map (payloadOf izone trailer)).flatten.length = (l.map (Event.size izone trailer)).sum := by
        intro l
        induction l with
        | nil => rfl
        | cons a l ih =>
          rw [List.flatMap_cons, List.map_append, List.flatten_append, List.length_append, ih, List.map_cons, List.sum_cons]
          congr 1
          exact evBytesOf_length izone trailer a
      refine ⟨fun d hd => ?_, ?_⟩
      · have hm : d ∈ vs.flatMap (·.sent) := List.mem_flatMap.2 ⟨v, by rw [e]; simp, hd⟩
        have hp := h.pointers (done.flatMap (·.sent)) d (todo.flatMap (·.sent)) (by
          rw [e, List.flatMap_append, List.flatMap_cons]
          cases v <;> simp [Event.sent] at hd ⊢ <;> exact hd.symm)
        rw [hlen] at hp
        exact ⟨h.long d hm, h.size d hm, hp⟩
      · have := ih (done ++ [v]) (by rw [e]; simp)
        rw [List.map_append, List.sum_append] at this
        simpa using this
  exact key vs [] rfl

theorem arrives_long {izone trailer : Nat} {l : Link} {vs : List Event} {fs : List Frame} (h : Arrives izone trailer l vs fs)
    (hl : ∀ d ∈ vs.flatMap (·.sent), 6 + izone + trailer + 2 ≤ d.length) : ∀ f ∈ fs, ¬ Short izone trailer f := by
  induction h with
  | nil => simp
  | @ok l d f vs fs hd hb hm hm' ha ih =>
    intro g hg
    rcases List.mem_cons.1 hg with rfl | hg
    · have := hl d (by simp [Event.sent])
      unfold Short
      rw [hd]; omega
    · exact ih (fun d hd => hl d (by rw [List.flatMap_cons]; exact List.mem_append_right _ hd)) g hg
  | @damaged l d f vs fs hb hs ha ih =>
    intro g hg
    rcases List.mem_cons.1 hg with rfl | hg
    · exact hs
    · exact ih (fun d hd => hl d (by rw [List.flatMap_cons]; exact List.mem_append_right _ hd)) g hg
  | @lost l d vs fs ha ih => exact ih (fun d hd => hl d (by rw [List.flatMap_cons]; exact List.mem_append_right _ hd))
  | @stray l f vs fs hb hs ha ih =>
    intro g hg
    rcases List.mem_cons.1 hg with rfl | hg
    · exact hs
    · exact ih (fun d hd => hl d (by rw [List.flatMap_cons]; exact List.mem_append_right _ hd)) g hg

/-- C82, one channel: the sender cuts a stream of packets (`tail`, the end of one begun earlier, then `all`) into frames in any way, with the prescribed pointers; on the
way, any frames are lost or damaged. `packet_decoder` yields exactly the packets whose bytes all arrived undisturbed, unaltered and in order. -/
theorem C82_channel (izone trailer : Nat) (v : U16) (vs : List Event) (frames : List Frame) (tail : List U8) (all : List (List U8))
    (hv : ∀ g ∈ frames, g.header.vcid = v) (hfr : Framing izone trailer tail all (vs.flatMap (·.sent))) (harr : Arrives izone trailer .unknown vs frames) :
    ∃ ps s, Collects FramedPackets.next (FramedPackets.new frames izone trailer) ps (some s) ∧
      ps.map (·.data) = survivors izone trailer vs 0 tail.length all ∧ ∀ p ∈ ps, Good p := by
  have hlong := arrives_long harr hfr.long
  obtain ⟨s, hc⟩ := collects_all izone trailer frames hlong
  obtain ⟨z, hz⟩ := hfr.bytes
  have hev : (vs.map (evBytesOf izone trailer)).flatten = ((vs.flatMap (·.sent)).map (payloadOf izone trailer)).flatten := by
    clear hv hfr harr hc hlong hz
    induction vs with
    | nil => rfl
    | cons v vs ih => rw [List.map_cons, List.flatten_cons, ih, List.flatMap_cons, List.map_append, List.flatten_append]; rfl
  have hm := chan_loss harr (Tracker.new v) 0 tail.length [] tail (tail ++ all.flatten) all hfr.packets rfl (by simp)
    (by rw [hev]; exact hfr.bytes) (placed_of_framing hfr) (.inr ⟨rfl, .inr ⟨rfl, rfl⟩⟩)
  rw [← runAll_single izone trailer _ v hv] at hm
  refine ⟨_, s, hc, hm, ?_⟩
  intro p hp
  obtain ⟨_, b, _, _, c⟩ := C49_wellformed izone trailer frames _ _ hc p hp
  exact ⟨b, c⟩

/-- C82, any interleaving of channels: every frame yields some packets on arrival (`outs`), and those of each channel `v` are the packets sent on it that arrived undisturbed,
whatever happens on the others. -/
theorem C82_channels (izone trailer : Nat) (frames : List Frame) (hlong : ∀ g ∈ frames, ¬ Short izone trailer g) :
    ∃ outs : List (List Packet), ByFrame izone trailer frames outs ∧
      (∃ s, Collects FramedPackets.next (FramedPackets.new frames izone trailer) outs.flatten (some s)) ∧
      ∀ (v : U16) (vs : List Event) (tail : List U8) (all : List (List U8)), Framing izone trailer tail all (vs.flatMap (·.sent)) →
        Arrives izone trailer .unknown vs (frames.filter (fun f => f.header.vcid == v)) →
        (((frames.zip outs).filter (fun x => x.1.header.vcid == v)).map (·.2)).flatten.map (·.data) = survivors izone trailer vs 0 tail.length all := by
  obtain ⟨outs, h1, h2, h3⟩ := C47_channels izone trailer frames hlong
  refine ⟨outs, h1, h2, ?_⟩
  intro v vs tail all hfr harr
  obtain ⟨s', h4⟩ := h3 v
  obtain ⟨ps, s'', h5, h6, _⟩ := C82_channel izone trailer v vs _ tail all (fun g hg => by simpa using (List.mem_filter.1 hg).2) hfr harr
  obtain ⟨rfl, _⟩ := h4.unique h5
  exact h6

/-- C82: in particular no packet is altered, invented, doubled or moved. -/
theorem C82_sublist (izone trailer : Nat) (vs : List Event) (pos s : Nat) (all : List (List U8)) :
    (survivors izone trailer vs pos s all).Sublist all := by
  induction all generalizing s with
  | nil => exact List.Sublist.slnil
  | cons q all ih =>
    rw [survivors]
    split
    · exact (ih _).cons_cons q
    · exact (ih _).cons q

/-- C82: nothing is lost as long as no frame is: the packets that survive are those that were sent completely. -/
theorem C82_no_loss (izone trailer : Nat) (vs : List Event) (pos s : Nat) (all : List (List U8)) (h : ∀ v ∈ vs, v.isOk = true)
    (he : s + all.flatten.length ≤ pos + (vs.map (Event.size izone trailer)).sum) : survivors izone trailer vs pos s all = all := by
  have key : ∀ (e s pos : Nat), e ≤ pos + (vs.map (Event.size izone trailer)).sum → Undisturbed izone trailer s e pos vs := by
    intro e s
    clear he
    induction vs with
    | nil => intro pos he; simpa [Undisturbed] using he
    | cons v vs ih =>
      intro pos he
      simp only [List.map_cons, List.sum_cons] at he
      exact ⟨.inl (h v (by simp)), ih (fun v hv => h v (by simp [hv])) _ (by omega)⟩
  induction all generalizing s with
  | nil => rfl
  | cons q all ih =>
    simp only [List.flatten_cons, List.length_append] at he
    rw [survivors, if_pos (key _ _ _ (by omega)), ih _ (by omega)]
    rfl

/-- C82: a loss is local: whether a packet survives depends only on the frames that carry parts of it. What happens to another frame (which carries the positions from
`a` to `a` plus its size, outside of `s, ..., e - 1`) makes no difference. -/
theorem C82_local (izone trailer : Nat) (before after : List Event) (v w : Event) (s e pos : Nat) (hsize : v.size izone trailer = w.size izone trailer)
    (hout : e ≤ pos + (before.map (Event.size izone trailer)).sum ∨ pos + (before.map (Event.size izone trailer)).sum + v.size izone trailer ≤ s) :
    Undisturbed izone trailer s e pos (before ++ v :: after) ↔ Undisturbed izone trailer s e pos (before ++ w :: after) := by
  induction before generalizing pos with
  | nil =>
    simp only [List.nil_append, Undisturbed, ← hsize]
    simp only [List.map_nil, List.sum_nil, Nat.add_zero] at hout
    have hn : ¬ (s < pos + v.size izone trailer ∧ pos < e) := by omega
    simp only [hn, not_false_iff, or_true, true_and]
  | cons u before ih =>
    simp only [List.cons_append, Undisturbed]
    simp only [List.map_cons, List.sum_cons] at hout
    rw [ih (pos + u.size izone trailer) (by omega)]

/-! ## Concrete: seven frames with five packets, the third frame lost, the fifth damaged -/

instance (ss : List Nat) (a len ptr : Nat) : Decidable (FirstHeaderPointer ss a len ptr) := by unfold FirstHeaderPointer; infer_instance

theorem pointers_of_index {izone trailer : Nat} {ss : List Nat} {datas : List (List U8)}
    (h : ∀ i, i < datas.length → FirstHeaderPointer ss (((datas.take i).map (payloadOf izone trailer)).flatten.length)
      (payloadOf izone trailer (datas.getD i [])).length (pointerOf izone (datas.getD i []))) :
    ∀ before d after, datas = before ++ d :: after →
      FirstHeaderPointer ss ((before.map (payloadOf izone trailer)).flatten.length) (payloadOf izone trailer d).length (pointerOf izone d) := by
  intro before d after e
  have := h before.length (by rw [e]; simp)
  rw [e] at this
  simpa [List.take_left'] using this

namespace LossEx

def stream : List U8 := 9#8 :: (SemEx.pktA ++ SemEx.pktB ++ SemEx.pktA ++ SemEx.pktB ++ SemEx.pktA)
def data (hi lo : U8) (i : Nat) : List U8 := [0x67#8, 0x6b#8, 0#8, 0#8, 0#8, 0#8, hi, lo] ++ (stream.drop (6 * i)).take 6
def frameOf (missing : U32) (integrity : Option Integrity) (d : List U8) : Frame := ⟨⟨1#8, 157#16, 43#16, 0#32⟩, missing, integrity, d⟩

def events : List Event :=
  [.ok (data 0 1 0), .ok (data 0 4 1), .lost (data 0 5 2), .ok (data 7 0xff 3), .damaged (data 0 2 4), .ok (data 0 3 5), .ok (data 7 0xff 6)]

def frames : List Frame :=
  [frameOf 0 none (data 0 1 0), frameOf 0 (some .corrected) (data 0 4 1), frameOf 1 (some .ok) (data 7 0xff 3), frameOf 77 (some .uncorrectable) (List.replicate 14 0xaa#8),
   frameOf 1000 none (data 0 3 5), frameOf 0 none (data 7 0xff 6)]

theorem framing : Framing 0 0 [9#8] [SemEx.pktA, SemEx.pktB, SemEx.pktA, SemEx.pktB, SemEx.pktA] (events.flatMap (·.sent)) where
  packets := by decide +kernel
  long := by decide +kernel
  size := by decide +kernel
  bytes := by decide +kernel
  pointers := pointers_of_index (by decide +kernel)

theorem arrives : Arrives 0 0 .unknown events frames := by
  refine .ok rfl (by decide) (by decide) (by decide) ?_
  refine .ok rfl (by decide) (by decide) (by decide) ?_
  refine .lost ?_
  refine .ok rfl (by decide) (by decide) (by decide) ?_
  refine .damaged (by decide) (by decide) ?_
  refine .ok rfl (by decide) (by decide) (by decide) ?_
  refine .ok rfl (by decide) (by decide) (by decide) ?_
  exact .nil

end LossEx

/-- The first and the last packet survive. -/
example : ∃ ps s, Collects FramedPackets.next (FramedPackets.new LossEx.frames 0 0) ps (some s) ∧ ps.map (·.data) = [SemEx.pktA, SemEx.pktA] := by
  obtain ⟨ps, s, h1, h2, _⟩ := C82_channel 0 0 43#16 LossEx.events LossEx.frames [9#8] _ (by decide +kernel) LossEx.framing LossEx.arrives
  refine ⟨ps, s, h1, h2.trans ?_⟩
  decide +kernel

end Ccsds
