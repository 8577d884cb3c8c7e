import Verif.Props.PacketSemantics
/-!
# C76: idle data does not become packets

The full statement does not hold: see `C76_violated`.
-/
namespace Ccsds
open Spec FramedPackets

/-- A frame whose MPDU carries idle data only (first header pointer 0x7fe), intact and without loss before it. -/
def FillFrame (izone : Nat) (g : Frame) : Prop := pointerOf izone g.data = 0x7fe ∧ ¬ Bad g ∧ g.missing = 0#32

/-- Full statement, first half: an idle frame anywhere between the frames of a channel leaves the packets as they are. -/
def C76_fill_full : Prop := ∀ (izone trailer : Nat) (v : U16) (a : List Frame) (g : Frame) (b : List Frame) (ps : List Packet) (s : FramedPackets.State),
  (∀ f ∈ a ++ g :: b, f.header.vcid = v ∧ ¬ Short izone trailer f) → FillFrame izone g →
  Collects FramedPackets.next (FramedPackets.new (a ++ b) izone trailer) ps (some s) →
  ∃ s', Collects FramedPackets.next (FramedPackets.new (a ++ g :: b) izone trailer) ps (some s')

/-- Full statement, second half: frames of the virtual channel 63, which CCSDS reserves for idle data, yield no packets. -/
def C76_vc63_full : Prop := ∀ (izone trailer : Nat) (frames : List Frame),
  (∀ f ∈ frames, f.header.vcid = 63#16 ∧ ¬ Short izone trailer f) →
  ∃ s, Collects FramedPackets.next (FramedPackets.new frames izone trailer) [] (some s)

namespace IdleEx

/-- A frame with one complete packet and the pointer 0. -/
def data (v : U16) : Frame := ⟨⟨1#8, 157#16, v, 0#32⟩, 0#32, none, [0x67#8, 0x6b#8, 0#8, 0#8, 0#8, 0#8, 0#8, 0#8] ++ SemEx.pktA⟩
/-- An idle frame: pointer 0x7fe, nine idle bytes. -/
def fill (v : U16) (idle : U8) : Frame :=
  ⟨⟨1#8, 157#16, v, 0#32⟩, 0#32, none, [0x67#8, 0x6b#8, 0#8, 0#8, 0#8, 0#8, 0x7#8, 0xfe#8] ++ List.replicate 9 idle⟩

/-- Nine zero bytes after a complete packet are taken for a packet of seven bytes, APID 0. -/
theorem decoded_fill : Decoded 0 0 [data 43#16, fill 43#16 0#8] [SemEx.pktA, List.replicate 7 0#8] :=
  .run (fs := [fill 43#16 0#8]) (later := []) (qs := [SemEx.pktA, List.replicate 7 0#8]) (rest := [0#8, 0#8]) (more := []) (by decide) (by decide +kernel)
    (by decide +kernel) (by simp) (by decide +kernel) (by decide +kernel) (noPacket_short _ (by decide)) (by decide +kernel) .nil

theorem decoded_data (v : U16) : Decoded 0 0 [data v] [SemEx.pktA] := by
  refine .run (fs := []) (later := []) (qs := [SemEx.pktA]) (rest := []) (more := []) ?_ ?_ (by simp) (by simp) ?_ (by decide +kernel)
    (noPacket_short _ (by decide)) (by decide +kernel) .nil
  · simp [Bad, data]
  · show ¬ NoStart 0 0 (data 0#16); decide +kernel
  · show bytesFrom 0 0 (data 0#16) [] = _; decide +kernel

end IdleEx

/-- C76 does not hold: an idle frame of zeros right after a complete packet yields a packet that was never sent, and so does a frame of channel 63 with a
first header pointer of 0. -/
theorem C76_violated : ¬ C76_fill_full ∧ ¬ C76_vc63_full := by
  constructor
  · intro h
    obtain ⟨ps, s, h1, _, h2⟩ := C74_channel 0 0 43#16 [IdleEx.data 43#16] (by decide) (by decide +kernel)
    obtain ⟨ps', s', h1', _, h2'⟩ := C74_channel 0 0 43#16 [IdleEx.data 43#16, IdleEx.fill 43#16 0#8] (by decide) (by decide +kernel)
    have e := (h2 _).1 (IdleEx.decoded_data 43#16)
    have e' := (h2' _).1 IdleEx.decoded_fill
    obtain ⟨s'', h3⟩ := h 0 0 43#16 [IdleEx.data 43#16] (IdleEx.fill 43#16 0#8) [] ps s (by decide +kernel)
      ⟨by decide +kernel, by decide, rfl⟩ h1
    obtain ⟨rfl, _⟩ := h1'.unique h3
    rw [← e] at e'
    simp at e'
  · intro h
    obtain ⟨ps, s, h1, _, h2⟩ := C74_channel 0 0 63#16 [IdleEx.data 63#16] (by decide) (by decide +kernel)
    have e := (h2 _).1 (IdleEx.decoded_data 63#16)
    obtain ⟨s', h3⟩ := h 0 0 [IdleEx.data 63#16] (by decide +kernel)
    obtain ⟨rfl, _⟩ := h1.unique h3
    simp at e

/-- What the bytes of idle frames become: on a synchronized channel their payload is taken for packet data like that of any other frame. `f` starts a packet, `fs`
follows without loss, and the idle frame `g` ends the input: the packets are the complete packets at the front of all these bytes. -/
theorem C76_fill_is_data (izone trailer : Nat) (v : U16) (f : Frame) (fs : List Frame) (g : Frame) (qs : List (List U8)) (rest : List U8)
    (hv : ∀ x ∈ f :: fs ++ [g], x.header.vcid = v ∧ ¬ Short izone trailer x) (hb : ¬ Bad f) (hn : ¬ NoStart izone trailer f)
    (hf : ∀ x ∈ fs, ¬ Bad x ∧ x.missing = 0#32) (hg : FillFrame izone g)
    (e : bytesFrom izone trailer f fs ++ payloadOf izone trailer g.data = qs.flatten ++ rest) (hq : ∀ q ∈ qs, IsPacket q) (hr : NoPacket rest)
    (hbr : ¬ BadHeader rest) :
    ∃ ps s, Collects FramedPackets.next (FramedPackets.new (f :: fs ++ [g]) izone trailer) ps (some s) ∧ ps.map (·.data) = qs := by
  obtain ⟨ps, s, h1, _, h2⟩ := C74_channel izone trailer v (f :: fs ++ [g]) (fun x hx => (hv x hx).1) (fun x hx => (hv x hx).2)
  have hd : Decoded izone trailer (f :: (fs ++ [g]) ++ []) (qs ++ []) := .run hb hn (by
      intro x hx
      rcases List.mem_append.1 hx with hx | hx
      · exact hf x hx
      · simp only [List.mem_singleton] at hx; subst hx; exact hg.2) (by simp) (by rw [← e]; simp [bytesFrom]) hq hr hbr .nil
  simp only [List.append_nil] at hd
  exact ⟨ps, s, h1, ((h2 _).1 hd).symm⟩

/-- Both idle frames and channel 63: frames none of which names a packet start yield no packets. -/
theorem C76_vc63_partial (izone trailer : Nat) (frames : List Frame)
    (h : ∀ f ∈ frames, f.header.vcid = 63#16 ∧ ¬ Short izone trailer f) (hp : ∀ f ∈ frames, 0x7fe ≤ pointerOf izone f.data) :
    ∃ s, Collects FramedPackets.next (FramedPackets.new frames izone trailer) [] (some s) := by
  obtain ⟨ps, s, h1, _, h2⟩ := C74_channel izone trailer 63#16 frames (fun x hx => (h x hx).1) (fun x hx => (h x hx).2)
  have hd : Decoded izone trailer frames [] := by
    clear h h1 h2
    induction frames with
    | nil => exact .nil
    | cons f fs ih =>
      refine .skip (.inr ?_) (ih fun x hx => hp x (by simp [hx]))
      have := hp f (by simp)
      have h11 : pointerOf izone f.data < 2 ^ 11 := field_lt _ _ _
      unfold NoStart
      omega
  have e := (h2 _).1 hd
  have : ps = [] := by simpa using e.symm
  subst this
  exact ⟨s, h1⟩

/-- After a start of the channel, or a damaged frame, or a loss: whatever came before does not matter. -/
theorem runChan_idle {izone trailer : Nat} {a : List Frame} {t : Tracker} (ht : Idle t) (h : ∀ x, a.getLast? = some x → Bad x) :
    Idle (endChan izone trailer a t) := by
  have snoc : ∀ (fs : List Frame) (x : Frame) (t : Tracker), endChan izone trailer (fs ++ [x]) t = (stepT izone trailer x (endChan izone trailer fs t)).2 := by
    intro fs x
    induction fs with
    | nil => intro t; rfl
    | cons g fs ih => intro t; simp only [List.cons_append, endChan, ih]
  by_cases ha : a = []
  · subst ha; exact ht
  · obtain ⟨init, x, rfl⟩ : ∃ init x, a = init ++ [x] := ⟨_, _, (List.dropLast_concat_getLast ha).symm⟩
    rw [snoc]
    exact (stepT_bad izone trailer x _ (h x (by simp))).2

theorem runChan_skips {izone trailer : Nat} {gs : List Frame} (h : ∀ g ∈ gs, NoStart izone trailer g) : ∀ {t : Tracker}, Idle t →
    (runChan izone trailer gs t).flatten = [] ∧ Idle (endChan izone trailer gs t) := by
  induction gs with
  | nil => intro t ht; exact ⟨rfl, ht⟩
  | cons g gs ih =>
    intro t ht
    obtain ⟨a, b⟩ := stepT_skip izone trailer g t ht (.inr (h g (by simp)))
    obtain ⟨c, d⟩ := ih (fun x hx => h x (by simp [hx])) b
    exact ⟨by simp [runChan, a, c], d⟩

/-- A synchronized tracker that holds nothing, and an unsynchronized one, treat a frame with the pointer 0 alike. -/
theorem runChan_boundary {izone trailer : Nat} {h : Frame} {later : List Frame} {t u : Tracker} (ht : t.sync = true) (hc : t.cache = []) (hu : Idle u)
    (h0 : pointerOf izone h.data = 0 ∨ Bad h ∨ h.missing ≠ 0#32) : runChan izone trailer (h :: later) t = runChan izone trailer (h :: later) u := by
  by_cases hb : Bad h
  · rw [runChan_later hu (t := t) (later := h :: later) (.inr (by intro g hg; cases hg; exact .inl hb))]
  by_cases hm : h.missing = 0#32
  · have hp : pointerOf izone h.data = 0 := by
      rcases h0 with x | x | x
      · exact x
      · exact absurd x hb
      · exact absurd hm x
    have hns : ¬ NoStart izone trailer h := by unfold NoStart; omega
    obtain ⟨qs, r, e, hq, hr⟩ := parse_exists (payloadOf izone trailer h.data)
    obtain ⟨ps, a, b, c, d, d'⟩ := stepT_start izone trailer h u (.inl hu.1) hb hns qs r (by rw [hp]; simpa using e) hq hr
    obtain ⟨ps', a', b', c', dd, dd'⟩ := stepT_sync izone trailer h t ht hb hm qs r (by rw [hc]; simpa using e) hq hr
    have hs : Same (stepT izone trailer h t).2 (stepT izone trailer h u).2 := by
      by_cases hbr : BadHeader r
      · exact ⟨by rw [(dd hbr).2, (d hbr).2], by rw [(dd hbr).1, (d hbr).1]⟩
      · exact ⟨by rw [(dd' hbr).2, (d' hbr).2], by rw [(dd' hbr).1, (d' hbr).1]⟩
    have hps : ps' = ps := good_ext _ _ b' b (by rw [a, a'])
    simp only [runChan, c, c', hps]
    rw [runChan_same izone trailer later _ _ hs]
  · rw [runChan_later hu (t := t) (later := h :: later) (.inr (by intro g hg; cases hg; exact .inr hm))]

/-- C76, proved part 1: idle frames at the start of the channel or after a damaged frame leave the packets as they are, whatever their idle bytes are. -/
theorem C76_fill_before_partial (izone trailer : Nat) (v : U16) (a gs b : List Frame) (hv : ∀ x ∈ a ++ gs ++ b, x.header.vcid = v ∧ ¬ Short izone trailer x)
    (hg : ∀ g ∈ gs, FillFrame izone g) (ha : ∀ x, a.getLast? = some x → Bad x) :
    ∃ ps s s', Collects FramedPackets.next (FramedPackets.new (a ++ b) izone trailer) ps (some s) ∧
      Collects FramedPackets.next (FramedPackets.new (a ++ gs ++ b) izone trailer) ps (some s') := by
  obtain ⟨s, h1⟩ := collects_all izone trailer (a ++ b) (fun x hx => (hv x (by
    rcases List.mem_append.1 hx with h | h <;> simp [h])).2)
  obtain ⟨s', h2⟩ := collects_all izone trailer (a ++ gs ++ b) (fun x hx => (hv x hx).2)
  rw [runAll_single izone trailer _ v (fun x hx => (hv x (by rcases List.mem_append.1 hx with h | h <;> simp [h])).1)] at h1
  rw [runAll_single izone trailer _ v (fun x hx => (hv x hx).1)] at h2
  refine ⟨_, s, s', h1, ?_⟩
  have hi := runChan_idle (izone := izone) (trailer := trailer) (a := a) (t := Tracker.new v) ⟨rfl, rfl⟩ ha
  obtain ⟨c, d⟩ := runChan_skips (izone := izone) (trailer := trailer) (gs := gs) (fun g h => .inr (.inl (hg g h).1)) hi
  have e : (runChan izone trailer (a ++ gs ++ b) (Tracker.new v)).flatten = (runChan izone trailer (a ++ b) (Tracker.new v)).flatten := by
    rw [List.append_assoc, runChan_append, runChan_append, runChan_append]
    simp only [List.flatten_append, c, List.nil_append]
    rw [runChan_same izone trailer b _ (endChan izone trailer a (Tracker.new v)) ⟨by rw [d.2, hi.2], by rw [d.1, hi.1]⟩]
  rwa [e] at h2

/-- C76, proved part 2: idle frames between packets (the bytes since the last start `f` are whole packets `qs`, and the frame that follows, if any, starts with a
packet, or is damaged, or follows a loss) leave the packets as they are, if the first bytes of the idle data cannot be the header of a telemetry packet. -/
theorem C76_fill_between_partial (izone trailer : Nat) (v : U16) (a : List Frame) (f : Frame) (fs : List Frame) (g : Frame) (gs b : List Frame)
    (qs : List (List U8)) (hv : ∀ x ∈ a ++ f :: fs ++ g :: gs ++ b, x.header.vcid = v ∧ ¬ Short izone trailer x)
    (ha : (∀ x, a.getLast? = some x → Bad x) ∨ f.missing ≠ 0#32) (hb : ¬ Bad f) (hn : ¬ NoStart izone trailer f)
    (hf : ∀ x ∈ fs, ¬ Bad x ∧ x.missing = 0#32) (e : bytesFrom izone trailer f fs = qs.flatten) (hq : ∀ q ∈ qs, IsPacket q)
    (hg : ∀ x ∈ g :: gs, FillFrame izone x) (hidle : BadHeader (payloadOf izone trailer g.data))
    (hnext : ∀ h, b.head? = some h → pointerOf izone h.data = 0 ∨ Bad h ∨ h.missing ≠ 0#32) :
    ∃ ps s s', Collects FramedPackets.next (FramedPackets.new (a ++ f :: fs ++ b) izone trailer) ps (some s) ∧
      Collects FramedPackets.next (FramedPackets.new (a ++ f :: fs ++ g :: gs ++ b) izone trailer) ps (some s') := by
  suffices h : ∃ ps s ps' s', Collects FramedPackets.next (FramedPackets.new (a ++ f :: fs ++ b) izone trailer) ps (some s) ∧
      Collects FramedPackets.next (FramedPackets.new (a ++ f :: fs ++ g :: gs ++ b) izone trailer) ps' (some s') ∧ ps' = ps by
    obtain ⟨ps, s, _, s', h1, h2, rfl⟩ := h
    exact ⟨_, s, s', h1, h2⟩
  have hv1 : ∀ x ∈ a ++ f :: fs ++ b, x.header.vcid = v ∧ ¬ Short izone trailer x := fun x hx => hv x (by
    rcases List.mem_append.1 hx with h | h
    · exact List.mem_append_left _ (List.mem_append_left _ h)
    · exact List.mem_append_right _ h)
  obtain ⟨s, h1⟩ := collects_all izone trailer (a ++ f :: fs ++ b) (fun x hx => (hv1 x hx).2)
  obtain ⟨s', h2⟩ := collects_all izone trailer (a ++ f :: fs ++ g :: gs ++ b) (fun x hx => (hv x hx).2)
  rw [runAll_single izone trailer _ v (fun x hx => (hv1 x hx).1)] at h1
  rw [runAll_single izone trailer _ v (fun x hx => (hv x hx).1)] at h2
  refine ⟨_, s, _, s', h1, h2, ?_⟩
  have hs : (endChan izone trailer a (Tracker.new v)).sync = false ∨ f.missing ≠ 0#32 := by
    rcases ha with ha | ha
    · exact .inl (runChan_idle (izone := izone) (trailer := trailer) (t := Tracker.new v) ⟨rfl, rfl⟩ ha).1
    · exact .inr ha
  obtain ⟨c1, c2, c3, c4⟩ := runChan_start izone trailer f fs (endChan izone trailer a (Tracker.new v)) qs [] hs hb hn hf
    (by simpa [bytesFrom] using e) hq (noPacket_short _ (by decide)) (by rintro ⟨h, _⟩; simp at h)
  have hgf := hg g (by simp)
  obtain ⟨ps1, d1, _, d3, d4, _⟩ := stepT_sync izone trailer g _ c3 hgf.2.1 hgf.2.2 [] (payloadOf izone trailer g.data) (by rw [c4]; rfl) (by simp)
    (noPacket_of_bad _ hidle)
  have d5 := d4 hidle
  have hps1 : ps1 = [] := by simpa using d1
  subst hps1
  obtain ⟨k1, k2⟩ := runChan_skips (izone := izone) (trailer := trailer) (gs := gs) (fun x h => .inr (.inl (hg x (by simp [h])).1)) d5
  have hend : ∀ (x y : List Frame) (t : Tracker), endChan izone trailer (x ++ y) t = endChan izone trailer y (endChan izone trailer x t) := by
    intro x y
    induction x with
    | nil => intro t; rfl
    | cons w x ih => intro t; simp only [List.cons_append, endChan, ih]
  have hsync := hend a (f :: fs) (Tracker.new v)
  rw [← hsync] at c3 c4 k1 k2 d3
  have hgs : (runChan izone trailer (g :: gs) (endChan izone trailer (a ++ f :: fs) (Tracker.new v))).flatten = [] := by
    simp only [runChan, d3, List.flatten_cons, List.nil_append, k1]
  rw [runChan_append, runChan_append (izone := izone) (fs := a ++ f :: fs) (gs := b), runChan_append (fs := a ++ f :: fs) (gs := g :: gs), hend (a ++ f :: fs) (g :: gs),
    List.flatten_append, List.flatten_append, List.flatten_append, hgs, List.append_nil]
  congr 2
  cases b with
  | nil => rfl
  | cons h later => exact (runChan_boundary c3 c4 k2 (hnext h rfl)).symm

/-- The hypotheses are met: a packet, two idle frames of 0xff, and the packet again. -/
example : ∃ ps s s', Collects FramedPackets.next (FramedPackets.new [IdleEx.data 43#16, IdleEx.data 43#16] 0 0) ps (some s) ∧
    Collects FramedPackets.next (FramedPackets.new [IdleEx.data 43#16, IdleEx.fill 43#16 0xff#8, IdleEx.fill 43#16 0xff#8, IdleEx.data 43#16] 0 0) ps (some s') :=
  C76_fill_between_partial 0 0 43#16 [] (IdleEx.data 43#16) [] (IdleEx.fill 43#16 0xff#8) [IdleEx.fill 43#16 0xff#8] [IdleEx.data 43#16] [SemEx.pktA]
    (by decide +kernel) (.inl (by simp)) (by decide) (by decide +kernel) (by simp) (by decide +kernel) (by decide +kernel)
    (by intro x hx; simp at hx; subst hx; exact ⟨by decide +kernel, by decide, rfl⟩) (by decide +kernel) (by intro h hh; cases hh; left; decide +kernel)

example : ∃ s, Collects FramedPackets.next (FramedPackets.new [IdleEx.fill 63#16 0#8, IdleEx.fill 63#16 0#8] 0 0) [] (some s) :=
  C76_vc63_partial 0 0 _ (by decide +kernel) (by decide +kernel)

end Ccsds
