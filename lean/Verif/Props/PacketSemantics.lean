import Verif.Props.Packets
/-!
# C74: what `packet_decoder` yields for every sequence of frames; C75: what it keeps in memory
-/
namespace Ccsds
open Spec FramedPackets

theorem runChan_later {izone trailer : Nat} {later : List Frame} {t u : Tracker} (hu : Idle u)
    (h : Idle t ∨ ∀ g, later.head? = some g → Bad g ∨ g.missing ≠ 0#32) : runChan izone trailer later t = runChan izone trailer later u := by
  rcases h with h | h
  · exact runChan_same izone trailer later t u ⟨by rw [h.2, hu.2], by rw [h.1, hu.1]⟩
  · cases later with
    | nil => rfl
    | cons g later =>
      rcases h g rfl with h | h
      · obtain ⟨a, b⟩ := stepT_bad izone trailer g t h
        obtain ⟨c, d⟩ := stepT_bad izone trailer g u h
        simp only [runChan, a, c]
        rw [runChan_same izone trailer later (stepT izone trailer g t).2 (stepT izone trailer g u).2 ⟨by rw [b.2, d.2], by rw [b.1, d.1]⟩]
      · obtain ⟨a, b⟩ := stepT_missing izone trailer g t u h
        simp only [runChan, a]
        rw [runChan_same izone trailer later _ _ b]

/-- The frames of a run that ends with an invalid header. -/
theorem runChan_invalid (izone trailer : Nat) (f : Frame) (fs : List Frame) (t : Tracker) (qs : List (List U8)) (bad : List U8)
    (hs : Idle t) (hb : ¬ Bad f) (hn : ¬ NoStart izone trailer f) (hf : ∀ g ∈ fs, ¬ Bad g ∧ g.missing = 0#32)
    (e : bytesFrom izone trailer f fs = qs.flatten ++ bad) (hq : ∀ q ∈ qs, IsPacket q) (hbad : BadHeader bad)
    (hlast : fs ≠ [] → (bytesFrom izone trailer f fs.dropLast).length < qs.flatten.length + 6) :
    ((runChan izone trailer (f :: fs) t).flatten.map (·.data)) = qs ∧ (∀ p ∈ (runChan izone trailer (f :: fs) t).flatten, Good p) ∧
      Idle (endChan izone trailer (f :: fs) t) := by
  by_cases hfs : fs = []
  · subst hfs
    obtain ⟨ps, a, b, c, d, _⟩ := stepT_start izone trailer f t (.inl hs.1) hb hn qs bad (by simpa [bytesFrom] using e) hq (noPacket_of_bad _ hbad)
    refine ⟨by simp [runChan, c, a], by simpa [runChan, c] using b, d hbad⟩
  · obtain ⟨init, last, rfl⟩ : ∃ init last, fs = init ++ [last] := ⟨_, _, (List.dropLast_concat_getLast hfs).symm⟩
    have hlast := hlast hfs
    rw [List.dropLast_concat] at hlast
    obtain ⟨qs0, r0, e0, hq0, hr0⟩ := parse_exists (bytesFrom izone trailer f init)
    obtain ⟨qs1, r1, e1, hq1, hr1⟩ := parse_exists (r0 ++ payloadOf izone trailer last.data)
    have hj : bytesFrom izone trailer f (init ++ [last]) = qs0.flatten ++ (r0 ++ payloadOf izone trailer last.data) := by
      rw [← List.append_assoc, ← e0]; simp [bytesFrom]
    obtain ⟨x, y⟩ := parse_unique qs (qs0 ++ qs1) bad r1 hq
      (by intro q hq; exact (List.mem_append.1 hq).elim (hq0 q) (hq1 q)) (noPacket_of_bad _ hbad) hr1
      (by rw [← e, hj, e1]; simp)
    subst x y
    have hb0 : ¬ BadHeader r0 := by
      intro hb0
      have h6 := hb0.1
      cases qs1 with
      | nil =>
        rw [e0, List.length_append] at hlast
        simp only [List.append_nil] at hlast
        omega
      | cons q qs1 =>
        have := badHeader_append r0 (payloadOf izone trailer last.data) hb0
        rw [e1] at this
        simp only [List.flatten_cons, List.append_assoc] at this
        exact noPacket_of_bad _ this q _ (hq1 q (by simp)) rfl
    obtain ⟨c1, c2, c3, c4⟩ := runChan_start izone trailer f init t qs0 r0 (.inl hs.1) hb hn (fun g hg => hf g (by simp [hg])) e0 hq0 hr0 hb0
    obtain ⟨ps1, d1, d2, d3, d4, _⟩ := stepT_sync izone trailer last _ c3 (hf last (by simp)).1 (hf last (by simp)).2 qs1 bad
      (by rw [c4]; exact e1) hq1 (noPacket_of_bad _ hbad)
    have happ : f :: (init ++ [last]) = (f :: init) ++ [last] := rfl
    rw [happ, runChan_append, List.flatten_append]
    have hone : (runChan izone trailer [last] (endChan izone trailer (f :: init) t)).flatten = ps1 := by simp [runChan, d3]
    rw [hone]
    refine ⟨by rw [List.map_append, c1, d1], ?_, ?_⟩
    · intro p hp
      exact (List.mem_append.1 hp).elim (c2 p) (d2 p)
    · have : ∀ fs t, endChan izone trailer (fs ++ [last]) t = (stepT izone trailer last (endChan izone trailer fs t)).2 := by
        intro fs
        induction fs with
        | nil => intro t; rfl
        | cons g fs ih => intro t; simp only [List.cons_append, endChan, ih]
      rw [this]
      exact d4 hbad

theorem runChan_decoded {izone trailer : Nat} {frames : List Frame} {qs : List (List U8)} (h : Decoded izone trailer frames qs) :
    ∀ t, Idle t → (runChan izone trailer frames t).flatten.map (·.data) = qs ∧ ∀ p ∈ (runChan izone trailer frames t).flatten, Good p := by
  induction h with
  | nil => intro t _; exact ⟨rfl, by simp [runChan]⟩
  | skip hs _ ih =>
    intro t ht
    obtain ⟨a, b⟩ := stepT_skip izone trailer _ t ht hs
    simpa [runChan, a] using ih _ b
  | run hb hn hf hl e hq hr hbr _ ih =>
    intro t ht
    obtain ⟨c1, c2, _, _⟩ := runChan_start izone trailer _ _ t _ _ (.inl ht.1) hb hn hf e hq hr hbr
    rw [runChan_append, List.flatten_append, runChan_later ht (.inr hl)]
    obtain ⟨d1, d2⟩ := ih t ht
    exact ⟨by rw [List.map_append, c1, d1], fun p hp => (List.mem_append.1 hp).elim (c2 p) (d2 p)⟩
  | invalid hb hn hf e hq hbad hl _ ih =>
    intro t ht
    obtain ⟨c1, c2, c3⟩ := runChan_invalid izone trailer _ _ t _ _ ht hb hn hf e hq hbad hl
    rw [runChan_append, List.flatten_append]
    obtain ⟨d1, d2⟩ := ih _ c3
    exact ⟨by rw [List.map_append, c1, d1], fun p hp => (List.mem_append.1 hp).elim (c2 p) (d2 p)⟩

theorem bytesFrom_length_mono (izone trailer : Nat) (f : Frame) (a b : List Frame) :
    bytesFrom izone trailer f (a ++ b) = bytesFrom izone trailer f a ++ (b.map (fun g => payloadOf izone trailer g.data)).flatten := by
  simp [bytesFrom]

/-- The first frame in which the stream has `n` bytes. -/
theorem first_reaching (izone trailer : Nat) (f : Frame) (n : Nat) (run : List Frame) (h : n ≤ (bytesFrom izone trailer f run).length) :
    ∃ fs more, run = fs ++ more ∧ n ≤ (bytesFrom izone trailer f fs).length ∧ (fs ≠ [] → (bytesFrom izone trailer f fs.dropLast).length < n) := by
  induction hl : run.length generalizing run with
  | zero =>
    have : run = [] := List.length_eq_zero_iff.1 hl
    subst this
    exact ⟨[], [], rfl, h, by simp⟩
  | succ k ih =>
    have hne : run ≠ [] := by intro e; rw [e] at hl; simp at hl
    by_cases hd : n ≤ (bytesFrom izone trailer f run.dropLast).length
    · obtain ⟨fs, more, e, h1, h2⟩ := ih run.dropLast hd (by simp [hl])
      exact ⟨fs, more ++ [run.getLast hne], by rw [← List.append_assoc, ← e, List.dropLast_concat_getLast], h1, h2⟩
    · exact ⟨run, [], by simp, h, fun _ => by omega⟩

theorem decoded_exists (izone trailer : Nat) (frames : List Frame) : ∃ qs, Decoded izone trailer frames qs := by
  induction hn : frames.length using Nat.strongRecOn generalizing frames with
  | ind n ih =>
    cases frames with
    | nil => exact ⟨_, .nil⟩
    | cons f rest =>
      simp only [List.length_cons] at hn
      by_cases hs : Bad f ∨ NoStart izone trailer f
      · obtain ⟨qs, h⟩ := ih rest.length (by omega) rest rfl
        exact ⟨qs, .skip hs h⟩
      · have hb : ¬ Bad f := fun h => hs (.inl h)
        have hns : ¬ NoStart izone trailer f := fun h => hs (.inr h)
        obtain ⟨run, later, hsp, hrun, hlater⟩ : ∃ run later, rest = run ++ later ∧ (∀ g ∈ run, ¬ Bad g ∧ g.missing = 0#32) ∧
            ∀ g, later.head? = some g → Bad g ∨ g.missing ≠ 0#32 := by
          clear hn ih
          induction rest with
          | nil => exact ⟨[], [], rfl, by simp, by simp⟩
          | cons g rest ih =>
            by_cases hg : ¬ Bad g ∧ g.missing = 0#32
            · obtain ⟨run, later, e, h1, h2⟩ := ih
              refine ⟨g :: run, later, by simp [e], ?_, h2⟩
              intro x hx
              rcases List.mem_cons.1 hx with rfl | hx
              · exact hg
              · exact h1 x hx
            · refine ⟨[], g :: rest, rfl, by simp, ?_⟩
              intro x hx
              simp only [List.head?_cons, Option.some.injEq] at hx
              subst hx
              by_cases hgb : Bad g
              · exact .inl hgb
              · exact .inr fun hm => hg ⟨hgb, hm⟩
        obtain ⟨qs, r, e, hq, hr⟩ := parse_exists (bytesFrom izone trailer f run)
        have hlen : rest.length = run.length + later.length := by rw [hsp, List.length_append]
        by_cases hbr : BadHeader r
        · obtain ⟨fs, more, e1, h1, h2⟩ := first_reaching izone trailer f (qs.flatten.length + 6) run (by
            rw [e, List.length_append]; have := hbr.1; omega)
          have hl1 : run.length = fs.length + more.length := by rw [e1, List.length_append]
          obtain ⟨qs', h⟩ := ih (more ++ later).length (by rw [List.length_append]; omega) (more ++ later) rfl
          have hpre : bytesFrom izone trailer f fs <+: qs.flatten ++ r := by
            rw [← e, e1, bytesFrom_length_mono]; exact List.prefix_append _ _
          have hq0 : qs.flatten <+: bytesFrom izone trailer f fs :=
            List.prefix_of_prefix_length_le (List.prefix_append _ _) hpre (by omega)
          obtain ⟨bad, hbad⟩ := hq0
          have hbr' : BadHeader bad := by
            obtain ⟨z, hz⟩ := hpre
            rw [← hbad, List.append_assoc] at hz
            have hz := List.append_cancel_left hz
            rw [← hz] at hbr
            refine badHeader_prefix bad z hbr ?_
            rw [← hbad, List.length_append] at h1
            omega
          refine ⟨qs ++ qs', ?_⟩
          rw [hsp, e1, List.append_assoc]
          exact .invalid hb hns (fun g hg => hrun g (by rw [e1]; simp [hg])) hbad.symm hq hbr' h2 h
        · obtain ⟨qs', h⟩ := ih later.length (by omega) later rfl
          refine ⟨qs ++ qs', ?_⟩
          rw [hsp]
          exact .run hb hns hrun hlater e hq hr hbr h

/-- C74, one channel: for every sequence of frames of one channel (none too short), `packet_decoder` yields packets whose bytes are what `Decoded` says, and
`Decoded` leaves no choice. -/
theorem C74_channel (izone trailer : Nat) (v : U16) (frames : List Frame) (hv : ∀ g ∈ frames, g.header.vcid = v)
    (hlong : ∀ g ∈ frames, ¬ Short izone trailer g) :
    ∃ ps s, Collects FramedPackets.next (FramedPackets.new frames izone trailer) ps (some s) ∧ (∀ p ∈ ps, Good p) ∧
      ∀ qs, Decoded izone trailer frames qs ↔ qs = ps.map (·.data) := by
  obtain ⟨s, hc⟩ := collects_all izone trailer frames hlong
  rw [runAll_single izone trailer _ v hv] at hc
  obtain ⟨qs0, h0⟩ := decoded_exists izone trailer frames
  have h1 := runChan_decoded h0 (Tracker.new v) ⟨rfl, rfl⟩
  refine ⟨_, s, hc, h1.2, ?_⟩
  intro qs
  constructor
  · intro h
    exact (runChan_decoded h (Tracker.new v) ⟨rfl, rfl⟩).1.symm
  · rintro rfl
    rw [h1.1]; exact h0

/-- C74, any interleaving of channels: every frame yields some packets on its arrival (`outs`), and channel by channel they are what `Decoded` says of the
frames of that channel. -/
theorem C74_frames (izone trailer : Nat) (frames : List Frame) (hlong : ∀ g ∈ frames, ¬ Short izone trailer g) :
    ∃ outs : List (List Packet), ByFrame izone trailer frames outs ∧
      (∃ s, Collects FramedPackets.next (FramedPackets.new frames izone trailer) outs.flatten (some s)) ∧ (∀ p ∈ outs.flatten, Good p) ∧
      ∀ v : U16, Decoded izone trailer (frames.filter (fun f => f.header.vcid == v))
        ((((frames.zip outs).filter (fun x => x.1.header.vcid == v)).map (·.2)).flatten.map (·.data)) := by
  obtain ⟨outs, h1, ⟨s, h2⟩, h3⟩ := C47_channels izone trailer frames hlong
  refine ⟨outs, h1, ⟨s, h2⟩, ?_, ?_⟩
  · intro p hp
    obtain ⟨a, b, _, _, c⟩ := C49_wellformed izone trailer frames _ _ h2 p hp
    exact ⟨b, c⟩
  · intro v
    obtain ⟨s', h4⟩ := h3 v
    obtain ⟨ps, s'', h5, _, h6⟩ := C74_channel izone trailer v (frames.filter (fun f => f.header.vcid == v))
      (fun g hg => by simpa using (List.mem_filter.1 hg).2) (fun g hg => hlong g (List.mem_filter.1 hg).1)
    obtain ⟨rfl, _⟩ := h4.unique h5
    exact (h6 _).2 rfl

namespace SemEx

/-- A frame of channel 43: 6 bytes of frame header, 2 bytes of MPDU header with pointer `ptr`, payload. -/
def frame (ptr : U8) (missing : U32) (integrity : Option Integrity) (payload : List U8) : Frame :=
  ⟨⟨1#8, 157#16, 43#16, 0#32⟩, missing, integrity, [0x67#8, 0x6b#8, 0#8, 0#8, 0#8, 0#8, 0#8, ptr] ++ payload⟩
def pktA : List U8 := [0x08#8, 1#8, 0xc0#8, 0#8, 0#8, 2#8, 1#8, 2#8, 3#8]
def pktB : List U8 := [0x08#8, 2#8, 0xc0#8, 0#8, 0#8, 0#8, 7#8]

instance (bs : List U8) : Decidable (IsPacket bs) := by unfold IsPacket; infer_instance
instance (bs : List U8) : Decidable (BadHeader bs) := by unfold BadHeader; infer_instance

/-- The end of some packet, packet A in two frames, then a loss (with the start of a lost packet before it), a frame with packet B, a damaged frame, an invalid
header, and packet A once more. -/
def frames : List Frame :=
  [frame 1#8 0 none (9#8 :: pktA.take 4), frame 7#8 0 none (pktA.drop 4 ++ pktB.take 6), frame 0#8 3 none pktB, frame 0#8 0 (some .uncorrectable) pktA,
   frame 0#8 0 none (List.replicate 6 0xff#8), frame 0#8 0 none pktA]

theorem decoded : Decoded 0 0 frames [pktA, pktB, pktA] := by
  refine .run (fs := [frame 7#8 0 none (pktA.drop 4 ++ pktB.take 6)]) (qs := [pktA]) (rest := pktB.take 6) (more := [pktB, pktA])
    (by decide) (by decide +kernel) (by decide +kernel) (by intro g hg; cases hg; exact .inr (by decide)) (by decide +kernel) (by decide +kernel) ?_ (by decide +kernel) ?_
  · intro p r hp e
    have hlen := congrArg List.length e
    have h7 := packetLen_ge p
    have := hp.2.1
    have : (pktB.take 6).length = 6 := rfl
    rw [List.length_append] at hlen
    omega
  · refine .run (fs := []) (qs := [pktB]) (rest := []) (more := [pktA]) (by decide) (by decide +kernel) (by simp)
      (by intro g hg; cases hg; exact .inl (.inl rfl)) (by decide +kernel) (by decide +kernel) (noPacket_short _ (by decide)) (by decide +kernel) ?_
    refine .skip (.inl (.inl rfl)) ?_
    refine .invalid (fs := []) (qs := []) (bad := List.replicate 6 0xff#8) (more := [pktA]) (by decide) (by decide +kernel) (by simp)
      (by decide +kernel) (by simp) (by decide +kernel) (by simp) ?_
    exact .run (fs := []) (later := []) (qs := [pktA]) (rest := []) (more := []) (by decide) (by decide +kernel) (by simp)
      (by simp) (by decide +kernel) (by decide +kernel) (noPacket_short _ (by decide)) (by decide +kernel) .nil

end SemEx

/-- For these frames the decoder yields the packets A, B, A. -/
example : ∃ ps s, Collects FramedPackets.next (FramedPackets.new SemEx.frames 0 0) ps (some s) ∧ ps.map (·.data) = [SemEx.pktA, SemEx.pktB, SemEx.pktA] := by
  obtain ⟨ps, s, h1, _, h2⟩ := C74_channel 0 0 43#16 SemEx.frames (by decide) (by decide +kernel)
  exact ⟨ps, s, h1, ((h2 _).1 SemEx.decoded).symm⟩

/-! ## C75 -/

/-- An incomplete packet is shorter than the longest packet. -/
theorem incomplete_short (rest : List U8) (h : NoPacket rest) (hb : ¬ BadHeader rest) : rest.length < 65542 := by
  apply Classical.byContradiction
  intro hl
  have h6 : 6 ≤ rest.length := by omega
  have hf : field rest 0 3 = 0 ∧ field rest 3 1 = 0 := Classical.byContradiction fun h => hb ⟨h6, h⟩
  have hp : packetLen rest ≤ 65542 := by
    unfold packetLen
    have := field_lt rest 32 16
    omega
  have h7 := packetLen_ge rest
  have hsplit := (List.take_append_drop (packetLen rest) rest).symm
  have h8 : (rest.take (packetLen rest)).length = packetLen rest := by rw [List.length_take]; omega
  refine h (rest.take (packetLen rest)) (rest.drop (packetLen rest)) ⟨by omega, ?_, ?_, ?_⟩ hsplit
  · rw [h8]
    conv => lhs; rw [hsplit]
    exact packetLen_append _ _ (by omega)
  · have e := field_append (rest.take (packetLen rest)) (rest.drop (packetLen rest)) 0 3 (by omega)
    rw [← hsplit] at e
    rw [← e]; exact hf.1
  · have e := field_append (rest.take (packetLen rest)) (rest.drop (packetLen rest)) 3 1 (by omega)
    rw [← hsplit] at e
    rw [← e]; exact hf.2

/-- The states the iterator passes through. -/
inductive Visits (s0 : FramedPackets.State) : FramedPackets.State → Prop where
  | start : Visits s0 s0
  | next {s s' : FramedPackets.State} {o : Option Packet} : Visits s0 s → FramedPackets.next s = .ret (o, s') → Visits s0 s'

structure Small (L : Nat) (s : FramedPackets.State) : Prop where
  cache : ∀ v t, s.cache.get? v = some t → t.cache.length < 65542
  keys : s.cache.keys.Nodup
  ready : (s.ready.map (fun p => p.data.length)).sum < 65542 + L
  frames : ∀ f ∈ s.frames, f.data.length ≤ L

theorem drain_small (t t' : Tracker) (ps : List Packet) (h : drain t = .ret (ps, t')) :
    t'.cache.length < 65542 ∧ (ps.map (fun p => p.data.length)).sum ≤ t.cache.length := by
  obtain ⟨qs, rest, e, hq, hr, hd⟩ := drain_spec t
  have hsum : (qs.map (fun p => p.data.length)).sum ≤ t.cache.length := by
    rw [e, List.length_append, List.length_flatten, List.map_map]
    exact Nat.le_add_right _ _
  rcases hd with ⟨hb, hd⟩ | ⟨hb, hd⟩ <;> rw [h] at hd <;> cases hd
  · exact ⟨by simp [Tracker.reset], hsum⟩
  · exact ⟨incomplete_short rest hr hb, hsum⟩

theorem payload_le (m : MPDU) (p : List U8) (f : Frame) (izone trailer : Nat) (h : f.mpdu izone trailer = .ret (some m)) (hp : m.payload = .ret p) :
    p.length ≤ f.data.length := by
  by_cases hs : Short izone trailer f
  · rcases mpdu_short f izone trailer hs with h' | h' <;> rw [h'] at h <;> cases h
  · obtain ⟨m', e1, e2, _⟩ := mpdu_eq f izone trailer hs
    rw [h] at e1; cases e1
    rw [hp] at e2; cases e2
    unfold payloadOf
    rw [List.length_take, List.length_drop]
    omega

theorem onFrame_small (izone trailer : Nat) (m : MPDU) (f : Frame) (t t' : Tracker) (ps : List Packet) (hm : f.mpdu izone trailer = .ret (some m))
    (ht : t.cache.length < 65542) (h : onFrame m f t = .ret (ps, t')) :
    t'.cache.length < 65542 ∧ (ps.map (fun p => p.data.length)).sum < 65542 + f.data.length := by
  unfold onFrame at h
  have h1 : (if f.integrity = some .corrected then { t with rsCorrected := true } else t).cache.length < 65542 := by split <;> exact ht
  generalize (if f.integrity = some .corrected then { t with rsCorrected := true } else t) = t1 at h h1
  dsimp only at h
  split at h
  · cases h; exact ⟨by simp [Tracker.reset], by simp; omega⟩
  · have h2 : (if f.missing.toNat > 0 then t1.reset else t1).cache.length < 65542 := by
      split
      · simp [Tracker.reset]
      · exact h1
    generalize (if f.missing.toNat > 0 then t1.reset else t1) = t2 at h h2
    split at h
    · cases hp : m.payload with
      | panic => rw [hp] at h; cases h
      | ret p =>
        rw [hp] at h
        have := drain_small _ _ _ h
        have hle := payload_le m p f izone trailer hm hp
        simp only [List.length_append] at this
        exact ⟨this.1, by omega⟩
    · split at h
      · cases h; exact ⟨h2, by simp; omega⟩
      · split at h
        · cases h; exact ⟨h2, by simp; omega⟩
        · cases hp : m.payload with
          | panic => rw [hp] at h; cases h
          | ret p =>
            rw [hp] at h
            simp only [] at h
            split at h
            · cases h; exact ⟨h2, by simp; omega⟩
            · have := drain_small _ _ _ h
              have hle := payload_le m p f izone trailer hm hp
              simp only [List.length_drop] at this
              exact ⟨this.1, by omega⟩

theorem loop_small (L izone trailer : Nat) (frames : List Frame) : ∀ (cache : HMap U16 Tracker) (o : Option Packet) (s : FramedPackets.State),
    (∀ v t, cache.get? v = some t → t.cache.length < 65542) → cache.keys.Nodup → (∀ f ∈ frames, f.data.length ≤ L) →
    loop izone trailer frames cache = .ret (o, s) → Small L s := by
  induction frames with
  | nil =>
    intro cache o s hc hk hf h
    simp only [loop] at h
    cases h
    exact ⟨hc, hk, by simp; omega, by simp⟩
  | cons f frames ih =>
    intro cache o s hc hk hf h
    rw [loop] at h
    cases hm : f.mpdu izone trailer with
    | panic => rw [hm] at h; cases h
    | ret mo =>
      cases mo with
      | none => rw [hm] at h; cases h
      | some m =>
        rw [hm] at h
        simp only [] at h
        have ht : ((cache.get? f.header.vcid).getD (Tracker.new f.header.vcid)).cache.length < 65542 := by
          cases hg : cache.get? f.header.vcid with
          | none => simp [Tracker.new]
          | some t => exact hc _ _ hg
        have hins : ∀ t : Tracker, t.cache.length < 65542 → ∀ v u, (cache.insert f.header.vcid t).get? v = some u → u.cache.length < 65542 := by
          intro t ht v u hu
          rw [HMap.get?_insert] at hu
          split at hu
          · cases hu; exact ht
          · exact hc v u hu
        have hL := hf f (by simp)
        cases ho : onFrame m f ((cache.get? f.header.vcid).getD (Tracker.new f.header.vcid)) with
        | panic => rw [ho] at h; cases h
        | ret x =>
          obtain ⟨ps, t'⟩ := x
          have hsm := onFrame_small izone trailer m f _ t' ps hm ht ho
          rw [ho] at h
          cases ps with
          | nil => exact ih _ o s (hins t' hsm.1) (HMap.nodup_insert _ _ _ hk) (fun g hg => hf g (by simp [hg])) h
          | cons p ps =>
            cases h
            refine ⟨hins t' hsm.1, HMap.nodup_insert _ _ _ hk, ?_, fun g hg => hf g (by simp [hg])⟩
            have := hsm.2
            simp only [List.map_cons, List.sum_cons] at this ⊢
            omega

/-- C75: at every moment of the iteration over any frames of at most `L` bytes, `packet_decoder` holds back, for each virtual channel once, less than one
longest packet (65542 bytes), and less than `65542 + L` bytes of complete packets not handed out yet. -/
theorem C75_memory (izone trailer L : Nat) (frames : List Frame) (hL : ∀ f ∈ frames, f.data.length ≤ L) (s : FramedPackets.State)
    (h : Visits (FramedPackets.new frames izone trailer) s) :
    (∀ v t, s.cache.get? v = some t → t.cache.length < 65542) ∧ s.cache.keys.Nodup ∧ (s.ready.map (fun p => p.data.length)).sum < 65542 + L := by
  have : Small L s := by
    induction h with
    | start => exact ⟨by intro v t h; simp [FramedPackets.new] at h, by simp [FramedPackets.new, HMap.keys], by simp [FramedPackets.new]; omega, hL⟩
    | @next s s' o _ hn ih =>
      unfold FramedPackets.next at hn
      split at hn
      · rename_i p ps e
        cases hn
        refine ⟨ih.cache, ih.keys, ?_, ih.frames⟩
        have := ih.ready
        rw [e] at this
        simp only [List.map_cons, List.sum_cons] at this
        show (ps.map (fun p => p.data.length)).sum < 65542 + L
        omega
      · exact loop_small L _ _ _ _ _ _ ih.cache ih.keys ih.frames hn
  exact ⟨this.cache, this.keys, this.ready⟩

/-- The hypotheses are met: the frames above visit a state after their first packet. -/
example : (∀ f ∈ SemEx.frames, f.data.length ≤ 40) ∧
    ∃ p s, FramedPackets.next (FramedPackets.new SemEx.frames 0 0) = .ret (some p, s) ∧ Visits (FramedPackets.new SemEx.frames 0 0) s := by
  refine ⟨by decide, ?_⟩
  obtain ⟨ps, s, h1, _, h2⟩ := C74_channel 0 0 43#16 SemEx.frames (by decide) (by decide +kernel)
  have := (h2 _).1 SemEx.decoded
  cases h1 with
  | done => cases this
  | step hn hc => exact ⟨_, _, hn, .next .start hn⟩

end Ccsds
