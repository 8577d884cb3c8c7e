import Verif.Proofs.Packets
/-!
# C46-C51: `packet_decoder`
-/
namespace Ccsds
open Spec FramedPackets

/-! ## C46  Reassembly -/

/-- Frames of one channel: some without usable pointer, then a frame with pointer `k`, then frames without loss. If the bytes
from position `k` on are the packets `qs` followed by an incomplete packet, exactly `qs` come out. No restriction on how the
bytes are distributed over the frames. -/
theorem C46_reassembly (izone trailer : Nat) (v : U16) (skip : List Frame) (f : Frame) (fs : List Frame)
    (qs : List (List U8)) (rest : List U8)
    (hv : ∀ g ∈ skip ++ f :: fs, g.header.vcid = v) (hlong : ∀ g ∈ skip ++ f :: fs, ¬ Short izone trailer g)
    (hskip : ∀ g ∈ skip, Bad g ∨ NoStart izone trailer g) (hb : ¬ Bad f) (hn : ¬ NoStart izone trailer f)
    (hf : ∀ g ∈ fs, ¬ Bad g ∧ g.missing = 0#32)
    (hbytes : (payloadOf izone trailer f.data).drop (pointerOf izone f.data) ++
      (fs.map (fun g => payloadOf izone trailer g.data)).flatten = qs.flatten ++ rest)
    (hq : ∀ q ∈ qs, IsPacket q) (hr : NoPacket rest) (hbr : ¬ BadHeader rest) :
    ∃ ps s, Collects FramedPackets.next (FramedPackets.new (skip ++ f :: fs) izone trailer) ps (some s) ∧
      ps.map (·.data) = qs ∧ ∀ p ∈ ps, Good p := by
  obtain ⟨s, hc⟩ := collects_all izone trailer (skip ++ f :: fs) hlong
  refine ⟨_, s, hc, ?_⟩
  rw [runAll_single izone trailer _ v hv, runChan_append, List.flatten_append]
  obtain ⟨a, b⟩ := runChan_skip izone trailer skip (Tracker.new v) ⟨rfl, rfl⟩ hskip
  obtain ⟨c, d, _, _⟩ := runChan_start izone trailer f fs _ qs rest (.inl b.1) hb hn hf hbytes hq hr hbr
  rw [a]
  exact ⟨c, d⟩

theorem starts_ge (at_ : Nat) (ps : List (List U8)) : ∀ x ∈ starts at_ ps, at_ ≤ x := by
  induction ps generalizing at_ with
  | nil => intro x hx; simp [starts] at hx
  | cons p ps ih =>
    intro x hx
    simp only [starts, List.mem_cons] at hx
    rcases hx with rfl | hx
    · omega
    · have := ih _ x hx; omega

/-- The packets completed by a prefix of a packet stream. -/
theorem prefix_parse (all : List (List U8)) : ∀ (b : List U8), (∀ q ∈ all, IsPacket q) → b <+: all.flatten →
    ∃ qs more rest, all = qs ++ more ∧ b = qs.flatten ++ rest ∧ NoPacket rest ∧ ¬ BadHeader rest ∧
      (∀ q, more.head? = some q → rest.length < q.length) := by
  induction all with
  | nil =>
    intro b _ hb
    simp at hb
    subst hb
    exact ⟨[], [], [], rfl, rfl, noPacket_short _ (by simp), fun h => by have := h.1; simp at this, by simp⟩
  | cons q all ih =>
    intro b hall hb
    have hq := hall q (by simp)
    by_cases hl : q.length ≤ b.length
    · obtain ⟨z, hz⟩ := hb
      have hqb : q <+: b := by
        refine List.prefix_of_prefix_length_le (l₃ := (q :: all).flatten) ?_ ⟨z, hz⟩ hl
        simp
      obtain ⟨b', rfl⟩ := hqb
      obtain ⟨qs, more, rest, e1, e2, h3, h4, h5⟩ := ih b' (fun x hx => hall x (by simp [hx]))
        ⟨z, by simpa using hz⟩
      exact ⟨q :: qs, more, rest, by simp [e1], by simp [e2], h3, h4, h5⟩
    · have hbq : b <+: q := by
        refine List.prefix_of_prefix_length_le hb ?_ (by omega)
        simp
      obtain ⟨x, hx⟩ := hbq
      refine ⟨[], q :: all, b, rfl, by simp, ?_, ?_, ?_⟩
      · intro p r hp e
        have : p ++ (r ++ x) = q ++ [] := by rw [← List.append_assoc, ← e, hx]; simp
        obtain ⟨e1, _⟩ := packet_prefix_unique _ _ _ _ hp hq this
        subst e1
        rw [e] at hl; simp at hl
      · intro hbad
        have h6 := hbad.1
        apply hbad.2
        rw [← field_append b x _ _ (by omega), ← field_append b x _ _ (by omega), hx]
        exact hq.2.2
      · intro q' hq'
        simp at hq'; subst hq'; omega

/-- Any way of cutting a packet stream into frames. The transmitted bytes are `pre` (the end of a packet begun earlier),
followed by the packets `all`; the received payloads are, in order, a prefix of it, of any sizes below 2046 bytes, each with
the first header pointer the standard prescribes for its position. Exactly the packets completed so far come out. -/
theorem C46_framing (izone trailer : Nat) (v : U16) (frames : List Frame) (pre : List U8) (all : List (List U8))
    (hv : ∀ g ∈ frames, g.header.vcid = v) (hlong : ∀ g ∈ frames, ¬ Short izone trailer g)
    (hsize : ∀ g ∈ frames, (payloadOf izone trailer g.data).length < 2046)
    (hgood : ∀ g ∈ frames, ¬ Bad g ∧ g.missing = 0#32)
    (hall : ∀ q ∈ all, IsPacket q)
    (hbytes : (frames.map (fun g => payloadOf izone trailer g.data)).flatten <+: pre ++ all.flatten)
    (hptr : ∀ before g after, frames = before ++ g :: after →
      FirstHeaderPointer (starts pre.length all) ((before.map (fun g => payloadOf izone trailer g.data)).flatten.length)
        (payloadOf izone trailer g.data).length (pointerOf izone g.data)) :
    ∃ ps s qs more, Collects FramedPackets.next (FramedPackets.new frames izone trailer) ps (some s) ∧
      (∀ p ∈ ps, Good p) ∧ ps.map (·.data) = qs ∧ all = qs ++ more ∧
      (qs ≠ [] → pre.length + qs.flatten.length ≤ (frames.map (fun g => payloadOf izone trailer g.data)).flatten.length) ∧
      (∀ q, more.head? = some q →
        (frames.map (fun g => payloadOf izone trailer g.data)).flatten.length < pre.length + qs.flatten.length + q.length) := by
  let pay := fun g : Frame => payloadOf izone trailer g.data
  -- either no frame contains a packet start, or there is a first one
  have split : (∀ g ∈ frames, NoStart izone trailer g) ∧ (frames.map pay).flatten.length ≤ pre.length ∨
      (∀ g ∈ frames, NoStart izone trailer g) ∧ all = [] ∨
      ∃ skip f fs, frames = skip ++ f :: fs ∧ (∀ g ∈ skip, NoStart izone trailer g) ∧ ¬ NoStart izone trailer f ∧
        (skip.map pay).flatten.length + pointerOf izone f.data = pre.length ∧ pointerOf izone f.data < (pay f).length := by
    cases all with
    | nil =>
      right; left
      refine ⟨?_, rfl⟩
      intro g hg
      obtain ⟨b, a, e⟩ := List.append_of_mem hg
      rcases hptr b g a e with ⟨x, hx, _⟩ | ⟨h, _⟩
      · simp [starts] at hx
      · exact .inl h
    | cons q0 all =>
      have hss : ∀ x ∈ starts pre.length (q0 :: all), pre.length ≤ x := starts_ge _ _
      have h0 : pre.length ∈ starts pre.length (q0 :: all) := by simp [starts]
      generalize starts pre.length (q0 :: all) = ss at hss h0 hptr
      have : ∀ (rest before : List Frame), frames = before ++ rest → (∀ g ∈ before, NoStart izone trailer g) →
          (before.map pay).flatten.length ≤ pre.length →
          ((∀ g ∈ frames, NoStart izone trailer g) ∧ (frames.map pay).flatten.length ≤ pre.length) ∨
          ∃ skip f fs, frames = skip ++ f :: fs ∧ (∀ g ∈ skip, NoStart izone trailer g) ∧ ¬ NoStart izone trailer f ∧
            (skip.map pay).flatten.length + pointerOf izone f.data = pre.length ∧ pointerOf izone f.data < (pay f).length := by
        intro rest
        induction rest with
        | nil =>
          intro before e h1 h2
          simp only [List.append_nil] at e
          subst e
          exact .inl ⟨h1, h2⟩
        | cons g rest ih =>
          intro before e h1 h2
          have hp := hptr before g rest e
          by_cases hin : pre.length < (before.map pay).flatten.length + (pay g).length
          · right
            have hpt : pointerOf izone g.data = pre.length - (before.map pay).flatten.length := by
              rcases hp with ⟨x, hx, a1, a2, a3, a4⟩ | ⟨_, b⟩
              · have := a4 _ h0 h2
                have := hss x hx
                rw [a3, show x = pre.length by omega]
              · exfalso
                have := b _ h0 h2
                have e2 : (pay g).length = (payloadOf izone trailer g.data).length := rfl
                have e3 : (before.map pay).flatten.length = (before.map (fun g => payloadOf izone trailer g.data)).flatten.length := rfl
                omega
            have hsz := hsize g (by rw [e]; simp)
            have e2 : (pay g).length = (payloadOf izone trailer g.data).length := rfl
            refine ⟨before, g, rest, e, h1, ?_, by omega, by omega⟩
            intro hns
            unfold NoStart at hns
            omega
          · have hns : NoStart izone trailer g := by
              rcases hp with ⟨x, hx, a1, a2, a3, a4⟩ | ⟨h, _⟩
              · exfalso
                have := hss x hx
                have e2 : (pay g).length = (payloadOf izone trailer g.data).length := rfl
                have e3 : (before.map pay).flatten.length = (before.map (fun g => payloadOf izone trailer g.data)).flatten.length := rfl
                omega
              · exact .inl h
            refine ih (before ++ [g]) (by simp [e]) ?_ ?_
            · intro x hx
              simp only [List.mem_append, List.mem_singleton] at hx
              rcases hx with hx | rfl
              · exact h1 x hx
              · exact hns
            · simp only [List.map_append, List.map_cons, List.map_nil, List.flatten_append, List.length_append,
                List.flatten_cons, List.flatten_nil, List.append_nil]
              omega
      rcases this frames [] rfl (by simp) (by simp) with h | h
      · exact .inl h
      · exact .inr (.inr h)
  have none_case : (∀ g ∈ frames, NoStart izone trailer g) → ∃ s,
      Collects FramedPackets.next (FramedPackets.new frames izone trailer) [] (some s) := by
    intro h
    obtain ⟨s, hc⟩ := collects_all izone trailer frames hlong
    rw [runAll_single izone trailer _ v hv,
      (runChan_skip izone trailer frames (Tracker.new v) ⟨rfl, rfl⟩ (fun g hg => .inr (h g hg))).1] at hc
    exact ⟨s, hc⟩
  rcases split with ⟨h, hl⟩ | ⟨h, hl⟩ | ⟨skip, f, fs, e, h1, h2, h3, h4⟩
  · obtain ⟨s, hc⟩ := none_case h
    refine ⟨[], s, [], all, hc, by simp, rfl, rfl, by simp, ?_⟩
    intro q hq
    have hqp := hall q (List.mem_of_mem_head? hq)
    have := hqp.1
    simp only [List.flatten_nil, List.length_nil]
    have e3 : (frames.map pay).flatten.length = (frames.map (fun g => payloadOf izone trailer g.data)).flatten.length := rfl
    omega
  · obtain ⟨s, hc⟩ := none_case h
    exact ⟨[], s, [], all, hc, by simp, rfl, rfl, by simp, by simp [hl]⟩
  · -- bytes after the first start
    have hB : (pay f).drop (pointerOf izone f.data) ++ (fs.map pay).flatten <+: all.flatten := by
      obtain ⟨z, hz⟩ := hbytes
      rw [e] at hz
      simp only [List.map_append, List.map_cons, List.flatten_append, List.flatten_cons] at hz
      refine ⟨z, ?_⟩
      have := congrArg (List.drop pre.length) hz
      rw [List.drop_left' rfl] at this
      rw [← this, ← h3]
      have e2 : ∀ (A P R z : List U8) (k : Nat), k ≤ P.length →
          (A ++ (P ++ R) ++ z).drop (A.length + k) = P.drop k ++ R ++ z := by
        intro A P R z k hk
        rw [List.append_assoc, List.drop_append, List.drop_eq_nil_of_le (by omega)]
        simp only [Nat.add_sub_cancel_left, List.nil_append]
        rw [List.append_assoc, List.drop_append_of_le_length hk]
        simp
      rw [← e2 _ _ _ _ _ (Nat.le_of_lt h4)]
    obtain ⟨qs, more, rest, a1, a2, a3, a4, a5⟩ := prefix_parse all _ hall hB
    obtain ⟨ps, s, hc, b1, b2⟩ := C46_reassembly izone trailer v skip f fs qs rest (by rw [← e]; exact hv)
      (by rw [← e]; exact hlong) (fun g hg => .inr (h1 g hg)) (hgood f (by rw [e]; simp)).1 h2
      (fun g hg => hgood g (by rw [e]; simp [hg])) a2 (fun q hq => hall q (by rw [a1]; simp [hq])) a3 a4
    have hlen : (frames.map (fun g => payloadOf izone trailer g.data)).flatten.length
        = pre.length + qs.flatten.length + rest.length := by
      have l1 := congrArg List.length a2
      rw [List.length_append, List.length_append, List.length_drop] at l1
      have l2 : (frames.map (fun g => payloadOf izone trailer g.data)).flatten.length =
          (skip.map pay).flatten.length + ((pay f).length + (fs.map pay).flatten.length) := by
        rw [e]; simp [pay]
      omega
    refine ⟨ps, s, qs, more, by rw [e]; exact hc, b2, b1, a1, ?_, ?_⟩
    · intro _; omega
    · intro q hq; have := a5 q hq; omega

/-- A concrete case: three packets over three frames of 6 payload bytes, the second packet's header split across frames, the
first frame starting with the last byte of an earlier packet. All hypotheses of `C46_framing` hold. -/
def exFrame (ptr : U8) (payload : List U8) : Frame :=
  ⟨⟨1, 0, 5, 0⟩, 0, none, [0x40, 0x05, 0, 0, 0, 0, 0x00, ptr] ++ payload⟩

def exFrames : List Frame :=
  [exFrame 1 [0xee, 0x01, 0x02, 0xc0, 0x00, 0x00], exFrame 2 [0x00, 0xaa, 0x01, 0x03, 0xc0, 0x01],
   exFrame 4 [0x00, 0x01, 0xbb, 0xcc, 0x01, 0x04]]

def exPackets : List (List U8) :=
  [[0x01, 0x02, 0xc0, 0x00, 0x00, 0x00, 0xaa], [0x01, 0x03, 0xc0, 0x01, 0x00, 0x01, 0xbb, 0xcc],
   [0x01, 0x04, 0xc0, 0x02, 0x00, 0x00, 0xdd]]

example : ∃ ps s, Collects FramedPackets.next (FramedPackets.new exFrames 0 0) ps (some s) ∧
    ps.map (·.data) = exPackets.take 2 := by
  have hall : ∀ q ∈ exPackets, IsPacket q := by unfold IsPacket; decide +kernel
  obtain ⟨ps, s, qs, more, h1, _, h2, h3, h4, h5⟩ := C46_framing 0 0 5 exFrames [0xee#8] exPackets (by decide +kernel)
    (by decide +kernel) (by decide +kernel) (by decide +kernel) hall ⟨[0xc0, 0x02, 0x00, 0x00, 0xdd], by decide +kernel⟩
    (by
      intro before g after e
      unfold exFrames at e
      match before, e with
      | [], e =>
        simp only [List.nil_append, List.cons.injEq] at e
        rw [← e.1]
        left; exact ⟨1, by decide +kernel⟩
      | [_], e =>
        simp only [List.cons_append, List.nil_append, List.cons.injEq] at e
        rw [← e.1, ← e.2.1]
        left; exact ⟨8, by decide +kernel⟩
      | [_, _], e =>
        simp only [List.cons_append, List.nil_append, List.cons.injEq] at e
        rw [← e.1, ← e.2.1, ← e.2.2.1]
        left; exact ⟨16, by decide +kernel⟩
      | _ :: _ :: _ :: b, e => simp at e)
  refine ⟨ps, s, h1, ?_⟩
  rw [h2]
  have hq : qs = exPackets.take qs.length := by rw [h3]; simp
  have hl : qs.length ≤ 3 := by
    have := congrArg List.length h3
    simp [exPackets] at this; omega
  have hm : more = exPackets.drop qs.length := by rw [h3]; simp
  generalize qs.length = n at hq hl hm
  subst hm
  have h4' : (exFrames.map (fun g => payloadOf 0 0 g.data)).flatten.length = 18 := by decide +kernel
  rw [h4'] at h4 h5
  match n, hl with
  | 0, _ => rw [hq] at h5; exact absurd (h5 _ rfl) (by decide +kernel)
  | 1, _ => rw [hq] at h5; exact absurd (h5 _ rfl) (by decide +kernel)
  | 2, _ => exact hq
  | 3, _ => rw [hq] at h4; exact absurd (h4 (by decide)) (by decide +kernel)

/-! ## C47  Channels are independent -/

/-- `outs` is the output of `packet_decoder` grouped by frames, each packet under the frame that completes it: given the first `n` frames only, the decoder gives the packets of the
first `n` lists. -/
structure ByFrame (izone trailer : Nat) (frames : List Frame) (outs : List (List Packet)) : Prop where
  length : outs.length = frames.length
  first : ∀ n, ∃ s, Collects FramedPackets.next (FramedPackets.new (frames.take n) izone trailer) (outs.take n).flatten (some s)

/-- There is only one such grouping. -/
theorem ByFrame.unique {izone trailer : Nat} {frames : List Frame} {outs outs' : List (List Packet)} (h : ByFrame izone trailer frames outs) (h' : ByFrame izone trailer frames outs') :
    outs = outs' := by
  have key : ∀ n, outs.take n = outs'.take n := by
    intro n
    induction n with
    | zero => simp
    | succ n ih =>
      obtain ⟨_, a⟩ := h.first (n + 1)
      obtain ⟨_, b⟩ := h'.first (n + 1)
      have e := (a.unique b).1
      by_cases hn : n < frames.length
      · have h1 : n < outs.length := by rw [h.length]; exact hn
        have h2 : n < outs'.length := by rw [h'.length]; exact hn
        rw [List.take_succ_eq_append_getElem h1, List.take_succ_eq_append_getElem h2, ih] at e ⊢
        simp only [List.flatten_append, List.flatten_cons, List.flatten_nil, List.append_nil] at e
        rw [List.append_cancel_left e]
      · have h1 : outs.length ≤ n := by rw [h.length]; omega
        have h2 : outs'.length ≤ n := by rw [h'.length]; omega
        rw [List.take_of_length_le h1, List.take_of_length_le h2] at ih
        rw [List.take_of_length_le (by omega), List.take_of_length_le (by omega), ih]
  have := key outs.length
  rw [List.take_length] at this
  rw [this, h.length, ← h'.length, List.take_length]

theorem runAll_take (izone trailer : Nat) (frames : List Frame) : ∀ (n : Nat) (m : HMap U16 Tracker),
    runAll izone trailer (frames.take n) m = (runAll izone trailer frames m).take n := by
  induction frames with
  | nil => intro n m; cases n <;> rfl
  | cons f fs ih =>
    intro n m
    cases n with
    | zero => rfl
    | succ n => simp only [List.take_succ_cons, runAll, ih]

theorem byFrame_all (izone trailer : Nat) (frames : List Frame) (hlong : ∀ g ∈ frames, ¬ Short izone trailer g) : ByFrame izone trailer frames (runAll izone trailer frames []) := by
  refine ⟨runAll_length _ _ _ _, fun n => ?_⟩
  obtain ⟨s, h⟩ := collects_all izone trailer (frames.take n) (fun g hg => hlong g (List.mem_of_mem_take hg))
  rw [runAll_take] at h
  exact ⟨s, h⟩

/-- For every interleaving, the packets produced on arrival of each frame (`outs`) are, channel by channel, those the channel
alone produces. -/
theorem C47_channels (izone trailer : Nat) (frames : List Frame) (hlong : ∀ g ∈ frames, ¬ Short izone trailer g) :
    ∃ outs : List (List Packet), ByFrame izone trailer frames outs ∧
      (∃ s, Collects FramedPackets.next (FramedPackets.new frames izone trailer) outs.flatten (some s)) ∧
      ∀ v : U16, ∃ s, Collects FramedPackets.next
        (FramedPackets.new (frames.filter (fun f => f.header.vcid == v)) izone trailer)
        (((frames.zip outs).filter (fun x => x.1.header.vcid == v)).map (·.2)).flatten (some s) := by
  refine ⟨runAll izone trailer frames [], byFrame_all izone trailer frames hlong, collects_all izone trailer frames hlong, ?_⟩
  intro v
  have h := collects_all izone trailer (frames.filter (fun f => f.header.vcid == v))
    (fun g hg => hlong g (List.mem_filter.1 hg).1)
  rw [runAll_single izone trailer _ v (fun f hf => by simpa using (List.mem_filter.1 hf).2)] at h
  rw [runAll_chan]
  exact h

/-- What comes out for earlier frames never depends on later ones. -/
theorem C47_causal (izone trailer : Nat) (a b : List Frame) (hlong : ∀ g ∈ a ++ b, ¬ Short izone trailer g) :
    ∃ pa pb sa sb, Collects FramedPackets.next (FramedPackets.new a izone trailer) pa (some sa) ∧
      Collects FramedPackets.next (FramedPackets.new (a ++ b) izone trailer) (pa ++ pb) (some sb) := by
  obtain ⟨sa, ha⟩ := collects_all izone trailer a (fun g hg => hlong g (by simp [hg]))
  obtain ⟨sb, hb⟩ := collects_all izone trailer (a ++ b) hlong
  have : ∀ (a : List Frame) m, ∃ x, runAll izone trailer (a ++ b) m = runAll izone trailer a m ++ x := by
    intro a
    induction a with
    | nil => intro m; exact ⟨_, rfl⟩
    | cons f a ih => intro m; obtain ⟨x, hx⟩ := ih (m.insert f.header.vcid (stepT izone trailer f ((m.get? f.header.vcid).getD (Tracker.new f.header.vcid))).2); exact ⟨x, by simp only [List.cons_append, runAll, hx]⟩
  obtain ⟨x, hx⟩ := this a []
  rw [hx, List.flatten_append] at hb
  exact ⟨_, _, sa, sb, ha, hb⟩

/-! ## C48, C49  What every produced packet is -/

theorem chan_slices (izone trailer : Nat) (fs : List Frame) : ∀ (hist : List Frame) (t : Tracker),
    (t.sync = true → ∃ pre g seg, hist = pre ++ g :: seg ∧ t.cache <:+ ((g :: seg).map (fun g => payloadOf izone trailer g.data)).flatten ∧
      (∀ x ∈ g :: seg, ¬ Bad x) ∧ (∀ x ∈ seg, x.missing = 0#32)) →
    ∀ p ∈ (runChan izone trailer fs t).flatten, IsPacket p.data ∧ Good p ∧
      ∃ pre g seg post, hist ++ fs = pre ++ g :: seg ++ post ∧
        p.data <:+: ((g :: seg).map (fun g => payloadOf izone trailer g.data)).flatten ∧
        (∀ x ∈ g :: seg, ¬ Bad x) ∧ (∀ x ∈ seg, x.missing = 0#32) := by
  induction fs with
  | nil => intro hist t _ p hp; simp [runChan] at hp
  | cons f fs ih =>
    intro hist t ht p hp
    simp only [runChan, List.flatten_cons, List.mem_append] at hp
    -- facts about this step
    have hstep : (∀ p ∈ (stepT izone trailer f t).1, IsPacket p.data ∧ Good p ∧ ∃ pre g seg, hist ++ [f] = pre ++ g :: seg ∧
          p.data <:+: ((g :: seg).map (fun g => payloadOf izone trailer g.data)).flatten ∧
          (∀ x ∈ g :: seg, ¬ Bad x) ∧ (∀ x ∈ seg, x.missing = 0#32)) ∧
        ((stepT izone trailer f t).2.sync = true → ∃ pre g seg, hist ++ [f] = pre ++ g :: seg ∧
          (stepT izone trailer f t).2.cache <:+ ((g :: seg).map (fun g => payloadOf izone trailer g.data)).flatten ∧
          (∀ x ∈ g :: seg, ¬ Bad x) ∧ (∀ x ∈ seg, x.missing = 0#32)) := by
      -- from a decomposition of the new cache and the segment it lies in
      have fin : ∀ (C : List U8) (pre : List Frame) (g : Frame) (seg : List Frame), hist ++ [f] = pre ++ g :: seg →
          C <:+ ((g :: seg).map (fun g => payloadOf izone trailer g.data)).flatten →
          (∀ x ∈ g :: seg, ¬ Bad x) → (∀ x ∈ seg, x.missing = 0#32) →
          (∀ qs rest, C = qs.flatten ++ rest → (∀ q ∈ qs, IsPacket q) → NoPacket rest →
            ∃ ps : List Packet, ps.map (·.data) = qs ∧ (∀ p ∈ ps, Good p) ∧ (stepT izone trailer f t).1 = ps ∧
            (BadHeader rest → Idle (stepT izone trailer f t).2) ∧
            (¬ BadHeader rest → (stepT izone trailer f t).2.sync = true ∧ (stepT izone trailer f t).2.cache = rest)) →
          (∀ p ∈ (stepT izone trailer f t).1, IsPacket p.data ∧ Good p ∧ ∃ pre g seg, hist ++ [f] = pre ++ g :: seg ∧
            p.data <:+: ((g :: seg).map (fun g => payloadOf izone trailer g.data)).flatten ∧
            (∀ x ∈ g :: seg, ¬ Bad x) ∧ (∀ x ∈ seg, x.missing = 0#32)) ∧
          ((stepT izone trailer f t).2.sync = true → ∃ pre g seg, hist ++ [f] = pre ++ g :: seg ∧
            (stepT izone trailer f t).2.cache <:+ ((g :: seg).map (fun g => payloadOf izone trailer g.data)).flatten ∧
            (∀ x ∈ g :: seg, ¬ Bad x) ∧ (∀ x ∈ seg, x.missing = 0#32)) := by
        intro C pre g seg e1 e2 e3 e4 h
        obtain ⟨qs, rest, c1, c2, c3⟩ := parse_exists C
        obtain ⟨ps, d1, d2, d3, d4, d5⟩ := h qs rest c1 c2 c3
        constructor
        · intro p hp
          rw [d3] at hp
          have hmem : p.data ∈ qs := by rw [← d1]; exact List.mem_map.2 ⟨p, hp, rfl⟩
          refine ⟨c2 _ hmem, d2 p hp, pre, g, seg, e1, ?_, e3, e4⟩
          refine List.IsInfix.trans ?_ e2.isInfix
          rw [c1]
          obtain ⟨x, y, hxy⟩ := List.append_of_mem hmem
          rw [hxy]
          exact ⟨x.flatten, y.flatten ++ rest, by simp⟩
        · intro hs
          by_cases hbad : BadHeader rest
          · have := (d4 hbad).1; rw [hs] at this; cases this
          · refine ⟨pre, g, seg, e1, ?_, e3, e4⟩
            rw [(d5 hbad).2]
            refine List.IsSuffix.trans ?_ e2
            rw [c1]; exact List.suffix_append _ _
      by_cases hb : Bad f
      · obtain ⟨a, b⟩ := stepT_bad izone trailer f t hb
        rw [a]
        exact ⟨by simp, fun hs => by rw [b.1] at hs; cases hs⟩
      · by_cases hm : t.sync = true ∧ f.missing = 0#32
        · obtain ⟨pre, g, seg, e1, e2, e3, e4⟩ := ht hm.1
          refine fin (t.cache ++ payloadOf izone trailer f.data) pre g (seg ++ [f]) (by simp [e1]) ?_ ?_ ?_ ?_
          · obtain ⟨z, hz⟩ := e2
            exact ⟨z, by
              simp only [List.map_cons, List.map_append, List.flatten_cons, List.flatten_append, List.map_nil,
                List.flatten_nil, List.append_nil] at hz ⊢
              rw [← List.append_assoc, hz]; simp⟩
          · intro x hx
            simp only [List.mem_cons, List.mem_append, List.not_mem_nil, or_false] at hx
            rcases hx with rfl | hx | rfl
            · exact e3 x (by simp)
            · exact e3 x (by simp [hx])
            · exact hb
          · intro x hx
            simp only [List.mem_append, List.mem_singleton] at hx
            rcases hx with hx | rfl
            · exact e4 x hx
            · exact hm.2
          · intro qs rest c1 c2 c3
            exact stepT_sync izone trailer f t hm.1 hb hm.2 qs rest c1 c2 c3
        · have hs : t.sync = false ∨ f.missing ≠ 0#32 := by
            cases h : t.sync with
            | false => exact .inl rfl
            | true => exact .inr (fun e => hm ⟨h, e⟩)
          by_cases hn : NoStart izone trailer f
          · have : (stepT izone trailer f t).1 = [] ∧ (stepT izone trailer f t).2.sync = false := by
              rcases hs with hs | hs
              · have := stepT_skip izone trailer f { t with cache := [] } ⟨hs, rfl⟩ (.inr hn)
                unfold stepT at this ⊢
                simp only [hb, if_false, hn, if_true] at this ⊢
                by_cases h1 : f.integrity = some .corrected <;> by_cases h2 : f.missing.toNat > 0 <;>
                  simp [h1, h2, hs, Tracker.reset]
              · have h1 := stepT_missing izone trailer f t (Tracker.new 0) hs
                have h2 := stepT_skip izone trailer f (Tracker.new 0) ⟨rfl, rfl⟩ (.inr hn)
                exact ⟨h1.1.trans h2.1, h1.2.2.trans h2.2.1⟩
            rw [this.1]
            exact ⟨by simp, fun hs => by rw [this.2] at hs; cases hs⟩
          · refine fin ((payloadOf izone trailer f.data).drop (pointerOf izone f.data)) hist f [] rfl ?_ ?_ (by simp) ?_
            · simp only [List.map_cons, List.map_nil, List.flatten_cons, List.flatten_nil, List.append_nil]
              exact List.drop_suffix _ _
            · intro x hx; simp at hx; subst hx; exact hb
            · intro qs rest c1 c2 c3
              exact stepT_start izone trailer f t hs hb hn qs rest c1 c2 c3
    rcases hp with hp | hp
    · obtain ⟨a, b, pre, g, seg, e, c⟩ := hstep.1 p hp
      exact ⟨a, b, pre, g, seg, fs, by rw [← e]; simp, c⟩
    · have := ih (hist ++ [f]) (stepT izone trailer f t).2 hstep.2 p hp
      simpa using this

theorem run_slices (izone trailer : Nat) (frames : List Frame) (p : Packet)
    (hp : p ∈ (runAll izone trailer frames []).flatten) : IsPacket p.data ∧ Good p ∧
      ∃ (v : U16) (pre : List Frame) (g : Frame) (seg post : List Frame),
        frames.filter (fun f => f.header.vcid == v) = pre ++ g :: seg ++ post ∧
        p.data <:+: ((g :: seg).map (fun g => payloadOf izone trailer g.data)).flatten ∧
        (∀ x ∈ g :: seg, ¬ Bad x) ∧ (∀ x ∈ seg, x.missing = 0#32) := by
  obtain ⟨out, ho, hpo⟩ := List.mem_flatten.1 hp
  obtain ⟨i, hi, e⟩ := List.getElem_of_mem ho
  have hl := runAll_length izone trailer frames []
  have hif : i < frames.length := by omega
  have hmem : p ∈ (runChan izone trailer (frames.filter (fun f => f.header.vcid == frames[i].header.vcid))
      (Tracker.new frames[i].header.vcid)).flatten := by
    have := runAll_chan izone trailer frames [] frames[i].header.vcid
    simp only [HMap.get?_nil, Option.getD_none] at this
    rw [← this]
    refine List.mem_flatten.2 ⟨out, List.mem_map.2 ⟨(frames[i], out), ?_, rfl⟩, hpo⟩
    refine List.mem_filter.2 ⟨?_, by simp⟩
    rw [← e]
    have hz : i < (frames.zip (runAll izone trailer frames [])).length := by simp; omega
    have := List.getElem_mem hz
    rwa [List.getElem_zip] at this
  obtain ⟨a, b, pre, g, seg, post, c⟩ := chan_slices izone trailer _ [] (Tracker.new frames[i].header.vcid)
    (fun h => by cases h) p hmem
  exact ⟨a, b, _, pre, g, seg, post, by simpa using c.1, c.2⟩

/-- Frames before the first too-short one, if any. -/
theorem split_short (izone trailer : Nat) (frames : List Frame) : (∀ g ∈ frames, ¬ Short izone trailer g) ∨
    ∃ ok g more, frames = ok ++ g :: more ∧ (∀ x ∈ ok, ¬ Short izone trailer x) ∧ Short izone trailer g := by
  induction frames with
  | nil => left; simp
  | cons f fs ih =>
    by_cases hf : Short izone trailer f
    · exact .inr ⟨[], f, fs, rfl, by simp, hf⟩
    · rcases ih with h | ⟨ok, g, more, e, h1, h2⟩
      · left; intro g hg; simp only [List.mem_cons] at hg; rcases hg with rfl | hg; exact hf; exact h g hg
      · refine .inr ⟨f :: ok, g, more, by simp [e], ?_, h2⟩
        intro g hg; simp only [List.mem_cons] at hg; rcases hg with rfl | hg; exact hf; exact h1 g hg

/-- Every packet that ever comes out is a contiguous slice of the payloads of consecutive frames `g :: seg` of one channel,
none of them bad, none after the first preceded by missing frames. -/
theorem C48_no_gap (izone trailer : Nat) (frames : List Frame) (ps : List Packet) (e : Option FramedPackets.State)
    (hc : Collects FramedPackets.next (FramedPackets.new frames izone trailer) ps e) (p : Packet) (hp : p ∈ ps) :
    ∃ (v : U16) (pre : List Frame) (g : Frame) (seg post : List Frame),
      frames.filter (fun f => f.header.vcid == v) = pre ++ g :: seg ++ post ∧
      p.data <:+: ((g :: seg).map (fun g => payloadOf izone trailer g.data)).flatten ∧
      (∀ x ∈ g :: seg, ¬ Bad x) ∧ (∀ x ∈ seg, x.missing = 0#32) := by
  rcases split_short izone trailer frames with h | ⟨ok, g, more, e1, h1, h2⟩
  · obtain ⟨s, hs⟩ := collects_all izone trailer frames h
    obtain ⟨rfl, _⟩ := hc.unique hs
    exact (run_slices izone trailer frames p hp).2.2
  · have hs := collects_short izone trailer ok g more h1 h2
    rw [← e1] at hs
    obtain ⟨rfl, _⟩ := hc.unique hs
    obtain ⟨v, pre, g', seg, post, a, b⟩ := (run_slices izone trailer ok p hp).2.2
    refine ⟨v, pre, g', seg, post ++ (g :: more).filter (fun f => f.header.vcid == v), ?_, b⟩
    rw [e1, List.filter_append, a]; simp

/-- Every packet that ever comes out is complete: exact length, version 0, type 0, its header decoded from its own bytes. -/
theorem C49_wellformed (izone trailer : Nat) (frames : List Frame) (ps : List Packet) (e : Option FramedPackets.State)
    (hc : Collects FramedPackets.next (FramedPackets.new frames izone trailer) ps e) (p : Packet) (hp : p ∈ ps) :
    p.data.length = 6 + p.header.lenMinus1.toNat + 1 ∧ PrimaryHeader.decode p.data = .ok p.header ∧
      p.header.version = 0 ∧ p.header.typeFlag = 0 ∧ p.offset = 0 := by
  have key : IsPacket p.data ∧ Good p := by
    rcases split_short izone trailer frames with h | ⟨ok, g, more, e1, h1, h2⟩
    · obtain ⟨s, hs⟩ := collects_all izone trailer frames h
      obtain ⟨rfl, _⟩ := hc.unique hs
      exact ⟨(run_slices izone trailer frames p hp).1, (run_slices izone trailer frames p hp).2.1⟩
    · have hs := collects_short izone trailer ok g more h1 h2
      rw [← e1] at hs
      obtain ⟨rfl, _⟩ := hc.unique hs
      exact ⟨(run_slices izone trailer ok p hp).1, (run_slices izone trailer ok p hp).2.1⟩
  obtain ⟨⟨h6, hl, hv, ht⟩, hd, ho⟩ := key
  obtain ⟨h, e', a, b, _, _, _, _, c⟩ := C01_fields p.data h6
  rw [hd] at e'; cases e'
  refine ⟨?_, hd, ?_, ?_, ho⟩
  · rw [hl, c]; rfl
  · exact BitVec.eq_of_toNat_eq (by rw [a, hv]; rfl)
  · exact BitVec.eq_of_toNat_eq (by rw [b, ht]; rfl)

/-! ## C50  Resynchronization -/

/-- After an uncorrectable or uncorrected frame the channel decodes as if it started with the next frame. -/
theorem C50_bad (izone trailer : Nat) (v : U16) (hist : List Frame) (f : Frame) (fs : List Frame)
    (hv : ∀ g ∈ hist ++ f :: fs, g.header.vcid = v) (hlong : ∀ g ∈ hist ++ f :: fs, ¬ Short izone trailer g) (hb : Bad f) :
    ∃ ps qs s1 s2 s3, Collects FramedPackets.next (FramedPackets.new hist izone trailer) ps (some s1) ∧
      Collects FramedPackets.next (FramedPackets.new fs izone trailer) qs (some s2) ∧
      Collects FramedPackets.next (FramedPackets.new (hist ++ f :: fs) izone trailer) (ps ++ qs) (some s3) := by
  obtain ⟨s1, h1⟩ := collects_all izone trailer hist (fun g hg => hlong g (by simp [hg]))
  obtain ⟨s2, h2⟩ := collects_all izone trailer fs (fun g hg => hlong g (by simp [hg]))
  obtain ⟨s3, h3⟩ := collects_all izone trailer (hist ++ f :: fs) hlong
  refine ⟨_, _, s1, s2, s3, h1, h2, ?_⟩
  rw [runAll_single izone trailer _ v (fun g hg => hv g (by simp [hg])),
    runAll_single izone trailer fs v (fun g hg => hv g (by simp [hg]))]
  rw [runAll_single izone trailer _ v hv, runChan_append, List.flatten_append] at h3
  simp only [runChan, List.flatten_cons] at h3
  obtain ⟨a, b⟩ := stepT_bad izone trailer f (endChan izone trailer hist (Tracker.new v)) hb
  rw [a, runChan_same izone trailer fs _ (Tracker.new v) ⟨b.2, b.1⟩] at h3
  exact h3

/-- A frame preceded by missing frames is decoded as if the channel started with it. -/
theorem C50_missing (izone trailer : Nat) (v : U16) (hist : List Frame) (f : Frame) (fs : List Frame)
    (hv : ∀ g ∈ hist ++ f :: fs, g.header.vcid = v) (hlong : ∀ g ∈ hist ++ f :: fs, ¬ Short izone trailer g)
    (hm : f.missing ≠ 0#32) :
    ∃ ps qs s1 s2 s3, Collects FramedPackets.next (FramedPackets.new hist izone trailer) ps (some s1) ∧
      Collects FramedPackets.next (FramedPackets.new (f :: fs) izone trailer) qs (some s2) ∧
      Collects FramedPackets.next (FramedPackets.new (hist ++ f :: fs) izone trailer) (ps ++ qs) (some s3) := by
  obtain ⟨s1, h1⟩ := collects_all izone trailer hist (fun g hg => hlong g (by simp [hg]))
  obtain ⟨s2, h2⟩ := collects_all izone trailer (f :: fs) (fun g hg => hlong g (List.mem_append_right _ hg))
  obtain ⟨s3, h3⟩ := collects_all izone trailer (hist ++ f :: fs) hlong
  refine ⟨_, _, s1, s2, s3, h1, h2, ?_⟩
  rw [runAll_single izone trailer _ v (fun g hg => hv g (by simp [hg])),
    runAll_single izone trailer (f :: fs) v (fun g hg => hv g (List.mem_append_right _ hg))]
  rw [runAll_single izone trailer _ v hv, runChan_append, List.flatten_append] at h3
  obtain ⟨a, b⟩ := stepT_missing izone trailer f (endChan izone trailer hist (Tracker.new v)) (Tracker.new v) hm
  have : runChan izone trailer (f :: fs) (endChan izone trailer hist (Tracker.new v)) =
      runChan izone trailer (f :: fs) (Tracker.new v) := by
    simp only [runChan, a]
    rw [runChan_same izone trailer fs _ _ b]
  rw [this] at h3
  exact h3

/-- Frames at the start of a channel that give no synchronization are skipped. With `C46_reassembly` (decoding starts exactly
at the pointer of the first other frame) this says where decoding resumes. -/
theorem C50_skip (izone trailer : Nat) (v : U16) (skip fs : List Frame)
    (hv : ∀ g ∈ skip ++ fs, g.header.vcid = v) (hlong : ∀ g ∈ skip ++ fs, ¬ Short izone trailer g)
    (hs : ∀ g ∈ skip, Bad g ∨ NoStart izone trailer g) :
    ∃ ps s1 s2, Collects FramedPackets.next (FramedPackets.new fs izone trailer) ps (some s1) ∧
      Collects FramedPackets.next (FramedPackets.new (skip ++ fs) izone trailer) ps (some s2) := by
  obtain ⟨s1, h1⟩ := collects_all izone trailer fs (fun g hg => hlong g (by simp [hg]))
  obtain ⟨s2, h2⟩ := collects_all izone trailer (skip ++ fs) hlong
  refine ⟨_, s1, s2, h1, ?_⟩
  rw [runAll_single izone trailer fs v (fun g hg => hv g (by simp [hg]))]
  rw [runAll_single izone trailer _ v hv, runChan_append, List.flatten_append] at h2
  obtain ⟨a, b⟩ := runChan_skip izone trailer skip (Tracker.new v) ⟨rfl, rfl⟩ hs
  rw [a, runChan_same izone trailer fs _ (Tracker.new v) ⟨b.2, b.1⟩] at h2
  exact h2

/-- After an invalid packet header: the packets before it come out, and the channel then decodes as if it started with the
frame after the one that completes the invalid header (`last`). -/
theorem C50_invalid (izone trailer : Nat) (v : U16) (skip : List Frame) (f : Frame) (fs : List Frame) (last : Frame)
    (later : List Frame) (qs : List (List U8)) (bad : List U8)
    (hv : ∀ g ∈ skip ++ f :: fs ++ last :: later, g.header.vcid = v)
    (hlong : ∀ g ∈ skip ++ f :: fs ++ last :: later, ¬ Short izone trailer g)
    (hskip : ∀ g ∈ skip, Bad g ∨ NoStart izone trailer g) (hb : ¬ Bad f) (hn : ¬ NoStart izone trailer f)
    (hf : ∀ g ∈ fs ++ [last], ¬ Bad g ∧ g.missing = 0#32)
    (hbytes : (payloadOf izone trailer f.data).drop (pointerOf izone f.data) ++
      ((fs ++ [last]).map (fun g => payloadOf izone trailer g.data)).flatten = qs.flatten ++ bad)
    (hq : ∀ q ∈ qs, IsPacket q) (hbad : BadHeader bad)
    (hlast : ((payloadOf izone trailer f.data).drop (pointerOf izone f.data) ++
      (fs.map (fun g => payloadOf izone trailer g.data)).flatten).length < qs.flatten.length + 6) :
    ∃ ps more s1 s2, ps.map (·.data) = qs ∧ (∀ p ∈ ps, Good p) ∧
      Collects FramedPackets.next (FramedPackets.new later izone trailer) more (some s1) ∧
      Collects FramedPackets.next (FramedPackets.new (skip ++ f :: fs ++ last :: later) izone trailer) (ps ++ more) (some s2) := by
  obtain ⟨s1, h1⟩ := collects_all izone trailer later (fun g hg => hlong g (by simp [hg]))
  obtain ⟨s2, h2⟩ := collects_all izone trailer _ hlong
  -- state before `last`
  obtain ⟨qs0, r0, e0, hq0, hr0⟩ := parse_exists ((payloadOf izone trailer f.data).drop (pointerOf izone f.data) ++
      (fs.map (fun g => payloadOf izone trailer g.data)).flatten)
  obtain ⟨qs1, r1, e1, hq1, hr1⟩ := parse_exists (r0 ++ payloadOf izone trailer last.data)
  have hsplit : (payloadOf izone trailer f.data).drop (pointerOf izone f.data) ++
      ((fs ++ [last]).map (fun g => payloadOf izone trailer g.data)).flatten = qs0.flatten ++ (r0 ++ payloadOf izone trailer last.data) := by
    rw [← List.append_assoc, ← e0]; simp
  obtain ⟨x, y⟩ := parse_unique qs (qs0 ++ qs1) bad r1 hq
    (by intro q hq; exact (List.mem_append.1 hq).elim (hq0 q) (hq1 q)) (noPacket_of_bad _ hbad) hr1
    (by rw [← hbytes, hsplit, e1]; simp)
  subst x y
  have hb0 : ¬ BadHeader r0 := by
    intro hb0
    have h6 := hb0.1
    cases qs1 with
    | nil =>
      rw [e0, List.length_append] at hlast
      simp only [List.append_nil] at hlast
      omega
    | cons q qs1 =>
      have := badHeader_append r0 (payloadOf izone trailer last.data) hb0
      rw [e1] at this
      simp only [List.flatten_cons, List.append_assoc] at this
      exact noPacket_of_bad _ this q _ (hq1 q (by simp)) rfl
  obtain ⟨a, b⟩ := runChan_skip izone trailer skip (Tracker.new v) ⟨rfl, rfl⟩ hskip
  obtain ⟨c1, c2, c3, c4⟩ := runChan_start izone trailer f fs (endChan izone trailer skip (Tracker.new v)) qs0 r0 (.inl b.1) hb hn
    (fun g hg => hf g (by simp [hg])) e0 hq0 hr0 hb0
  obtain ⟨ps1, d1, d2, d3, d4, _⟩ := stepT_sync izone trailer last _ c3 (hf last (by simp)).1 (hf last (by simp)).2 qs1 bad
    (by rw [c4]; exact e1) hq1 (noPacket_of_bad _ hbad)
  have d5 := d4 hbad
  rw [runAll_single izone trailer _ v hv, List.append_assoc, runChan_append, List.flatten_append, a, List.nil_append,
    runChan_append, List.flatten_append] at h2
  simp only [runChan, List.flatten_cons] at h2
  rw [runChan_same izone trailer later _ (Tracker.new v) ⟨d5.2, d5.1⟩] at h2
  rw [runAll_single izone trailer later v (fun g hg => hv g (by simp [hg]))] at h1
  refine ⟨(runChan izone trailer (f :: fs) (endChan izone trailer skip (Tracker.new v))).flatten ++ ps1, _, s1, s2, ?_, ?_, h1, ?_⟩
  · rw [List.map_append, c1, d1]
  · intro p hp
    exact (List.mem_append.1 hp).elim (c2 p) (d2 p)
  · rw [d3] at h2
    simpa [runChan] using h2

/-! ## C51  Panics and termination -/

/-- Every iteration ends; it ends in a panic iff some frame is too short, whatever its integrity. -/
theorem C51_panic_iff (izone trailer : Nat) (frames : List Frame) :
    ∃ ps e, Collects FramedPackets.next (FramedPackets.new frames izone trailer) ps e ∧
      (e = none ↔ ∃ f ∈ frames, f.data.length < 6 + izone + trailer + 2) := by
  rcases split_short izone trailer frames with h | ⟨ok, g, more, e1, h1, h2⟩
  · obtain ⟨s, hs⟩ := collects_all izone trailer frames h
    refine ⟨_, _, hs, by simp, ?_⟩
    rintro ⟨f, hf, hl⟩
    exact absurd hl (h f hf)
  · have hs := collects_short izone trailer ok g more h1 h2
    rw [← e1] at hs
    exact ⟨_, _, hs, fun _ => ⟨g, by rw [e1]; simp, h2⟩, fun _ => rfl⟩

/-- Everything produced by the frames before the short one comes out first. -/
theorem C51_before_panic (izone trailer : Nat) (ok : List Frame) (g : Frame) (more : List Frame)
    (h1 : ∀ f ∈ ok, 6 + izone + trailer + 2 ≤ f.data.length) (h2 : g.data.length < 6 + izone + trailer + 2) :
    ∃ ps s, Collects FramedPackets.next (FramedPackets.new ok izone trailer) ps (some s) ∧
      Collects FramedPackets.next (FramedPackets.new (ok ++ g :: more) izone trailer) ps none := by
  have h1' : ∀ f ∈ ok, ¬ Short izone trailer f := fun f hf => by unfold Short; have := h1 f hf; omega
  obtain ⟨s, hs⟩ := collects_all izone trailer ok h1'
  exact ⟨_, s, hs, collects_short izone trailer ok g more h1' h2⟩

end Ccsds
