import Verif.Props.LinkPlain
import Verif.Props.Channels
/-!
# Decoding again what `ccsds framing` wrote (C132)

The output file of `ccsds framing` is a row of frames without markers and check symbols. Here such a file is read back in records of the frame size, which are handed to
`frame_decoder` and then to `packet_decoder`.
-/
namespace Ccsds
open Spec Spec.Transmitter Pipeline FramedPackets

namespace Spec.Transmitter

/-- The frames sent (channel, number on the channel) that are on the file; `kept` says for every slot whether it is. -/
def keptSlots (slots : List (BitVec 6)) (kept : List Bool) : List (BitVec 6 × Nat) := (((number [] slots).zip kept).filter fun x => x.2).map (·.1)

/-- In the terms of a link: the frames on the file are received, the others are lost. -/
def onFile (kept : List Bool) : List Fate := kept.map fun k => if k then .received [] else .lost

/-- `d` is on file for frame `x`: the frame as it was sent; of fill, anything of the right size with its header. -/
structure Recorded (t : Transmitter) (packets : BitVec 6 → List (List U8)) (x : BitVec 6 × Nat) (d : List U8) : Prop where
  size : d.length = t.frameSize
  header : d.take 6 = (t.frame (packets x.1) x.1 x.2).take 6
  frame : x.1 ≠ 63 → d = t.frame (packets x.1) x.1 x.2

/-- The same fates, as far as loss goes. -/
def SameLoss (f g : Fate) : Prop := (f = .lost ∧ g = .lost) ∨ (f.ok = true ∧ g.ok = true)

theorem fatesOf_sameLoss (v : BitVec 6) (slots : List (BitVec 6)) : ∀ (fs gs : List Fate), List.Forall₂ SameLoss fs gs → List.Forall₂ SameLoss (fatesOf slots fs v) (fatesOf slots gs v) := by
  induction slots with
  | nil => intro fs gs _; exact .nil
  | cons w slots ih =>
    intro fs gs h
    cases h with
    | nil => exact .nil
    | @cons f g fs gs h1 h2 =>
      have := ih fs gs h2
      unfold fatesOf at this ⊢
      simp only [List.zip_cons_cons, List.filter_cons]
      by_cases hw : w = v
      · simp only [hw, beq_self_eq_true, if_true, List.map_cons]
        exact .cons h1 this
      · simp only [beq_eq_false_iff_ne.2 hw, Bool.false_eq_true, if_false]
        exact this

theorem SameLoss.ok {f g : Fate} (h : SameLoss f g) : f.ok = g.ok := by
  rcases h with ⟨rfl, rfl⟩ | ⟨h1, h2⟩
  · rfl
  · rw [h1, h2]

theorem SameLoss.lost {f g : Fate} (h : SameLoss f g) : f = .lost ↔ g = .lost := by
  rcases h with ⟨rfl, rfl⟩ | ⟨h1, h2⟩
  · exact ⟨fun _ => rfl, fun _ => rfl⟩
  · constructor
    · rintro rfl; cases h1
    · rintro rfl; cases h2

theorem whole_sameLoss (t : Transmitter) {fs gs : List Fate} (h : List.Forall₂ SameLoss fs gs) (a e : Nat) : t.whole fs a e = t.whole gs a e := by
  unfold whole
  rw [h.length_eq]
  congr 1
  generalize 0 = n
  induction h generalizing n with
  | nil => rfl
  | cons h1 _ ih =>
    rw [List.zipIdx_cons, List.zipIdx_cons, List.all_cons, List.all_cons, ih, h1.ok]

end Spec.Transmitter

/-! ### The frame decoder on the records -/

/-- The header only depends on the first six bytes. -/
theorem decode_take {a c : List U8} (ha : 6 ≤ a.length) (h : a.take 6 = c.take 6) : VCDUHeader.decode a = VCDUHeader.decode c := C33_prefix a c ha h

theorem lastOfChannel_alike {as bs : List Block} (h : List.Forall₂ (fun a c : Block => VCDUHeader.decode a.data = VCDUHeader.decode c.data) as bs) (v : U16) :
    lastOfChannel as v = lastOfChannel bs v := by
  unfold lastOfChannel
  congr 2
  induction h with
  | nil => rfl
  | cons h1 _ ih => rw [List.filterMap_cons, List.filterMap_cons, h1, ih]

/-- A frame as the stage that does not check gives it, and the same frame checked: for `packet_decoder` there is no difference. -/
structure AsChecked (f g : Frame) : Prop where
  header : g.header = f.header
  missing : g.missing = f.missing
  plain : f.integrity = none
  checked : g.header.vcid ≠ 63 → g.data = f.data ∧ g.integrity = some .ok

theorem loop_checked (izone trailer : Nat) {fs gs : List Frame} (h : List.Forall₂ (fun f g => AsChecked f g ∧ g.header.vcid ≠ 63) fs gs) : ∀ (m : HMap U16 Tracker) (p : Option Packet) (s : FramedPackets.State),
    FramedPackets.loop izone trailer gs m = .ret (p, s) →
    ∃ fs', FramedPackets.loop izone trailer fs m = .ret (p, { s with frames := fs' }) ∧ List.Forall₂ (fun f g => AsChecked f g ∧ g.header.vcid ≠ 63) fs' s.frames ∧ s.izone = izone ∧ s.trailer = trailer := by
  induction h with
  | nil =>
    intro m p s e
    simp only [FramedPackets.loop, Outcome.ret.injEq, Prod.mk.injEq] at e
    obtain ⟨rfl, rfl⟩ := e
    exact ⟨[], rfl, .nil, rfl, rfl⟩
  | @cons f g fs gs h1 h2 ih =>
    intro m p s e
    obtain ⟨hd, hi⟩ := h1.1.checked h1.2
    have hm : f.mpdu izone trailer = g.mpdu izone trailer := by
      unfold Frame.mpdu; rw [hd]
    have ho : ∀ mp t, onFrame mp f t = onFrame mp g t := by
      intro mp t
      unfold onFrame
      rw [hi, h1.1.plain, h1.1.missing]
      simp
    unfold FramedPackets.loop at e ⊢
    rw [hm]
    cases hgm : g.mpdu izone trailer with
    | panic => rw [hgm] at e; cases e
    | ret mo =>
      rw [hgm] at e
      cases mo with
      | none => cases e
      | some mp =>
        simp only [← h1.1.header, ho] at e ⊢
        generalize onFrame mp g _ = oc at e ⊢
        match oc with
        | .panic => cases e
        | .ret ([], t) => exact ih _ _ _ e
        | .ret (q :: qs, t) =>
          simp only [Outcome.ret.injEq, Prod.mk.injEq] at e
          obtain ⟨rfl, rfl⟩ := e
          exact ⟨fs, rfl, h2, rfl, rfl⟩

theorem collects_checked {fs gs : List Frame} {s s' : FramedPackets.State} {ps : List Packet} (h : List.Forall₂ (fun f g => AsChecked f g ∧ g.header.vcid ≠ 63) fs gs)
    (hs : s.frames = gs) (hc : Collects FramedPackets.next s ps (some s')) :
    ∃ s'', Collects FramedPackets.next { s with frames := fs } ps (some s'') := by
  generalize he : some s' = e at hc
  induction hc generalizing fs gs with
  | done hn =>
    rename_i s0 s1
    unfold FramedPackets.next at hn
    cases hr : s0.ready with
    | cons q qs => rw [hr] at hn; cases hn
    | nil =>
      rw [hr] at hn
      rw [hs] at hn
      obtain ⟨fs', h1, h2, h3, h4⟩ := loop_checked _ _ h _ _ _ hn
      refine ⟨_, .done (s' := { s1 with frames := fs' }) ?_⟩
      unfold FramedPackets.next
      exact h1
  | panicked _ => cases he
  | step hn _ ih =>
    rename_i s0 s1 q qs e0 hx
    unfold FramedPackets.next at hn
    cases hr : s0.ready with
    | cons q' qs' =>
      rw [hr] at hn
      simp only [Outcome.ret.injEq, Prod.mk.injEq, Option.some.injEq] at hn
      obtain ⟨rfl, rfl⟩ := hn
      obtain ⟨s2, h2⟩ := ih h hs he
      refine ⟨s2, .step ?_ h2⟩
      rfl
    | nil =>
      rw [hr, hs] at hn
      obtain ⟨fs', h1, h2, h3, h4⟩ := loop_checked _ _ h _ _ _ hn
      obtain ⟨s2, h5⟩ := ih h2 rfl he
      refine ⟨s2, .step (s' := { s1 with frames := fs' }) ?_ h5⟩
      unfold FramedPackets.next
      exact h1

theorem forall₂_filter {α β : Type} {R : α → β → Prop} (p : α → Bool) (q : β → Bool) {as : List α} {bs : List β} (h : List.Forall₂ R as bs) (hpq : ∀ a c, R a c → p a = q c) :
    List.Forall₂ (fun a c => R a c ∧ q c = true) (as.filter p) (bs.filter q) := by
  induction h with
  | nil => exact .nil
  | cons h1 _ ih =>
    rw [List.filter_cons, List.filter_cons, hpq _ _ h1]
    split
    · exact .cons ⟨h1, by assumption⟩ ih
    · exact ih

/-- The frames of a channel checked or not checked: the same packets. -/
theorem packetsOf_checked {izone trailer : Nat} {fs gs : List Frame} {outs outs' : List (List Packet)} (h : List.Forall₂ AsChecked fs gs)
    (hf : ∀ f ∈ fs, ¬ Short izone trailer f) (hg : ∀ g ∈ gs, ¬ Short izone trailer g) (ho : ByFrame izone trailer fs outs) (ho' : ByFrame izone trailer gs outs') (v : U16) (hv : v ≠ 63) :
    packetsOf v fs outs = packetsOf v gs outs' := by
  obtain ⟨o1, b1, _, c1⟩ := C47_channels izone trailer fs hf
  obtain ⟨o2, b2, _, c2⟩ := C47_channels izone trailer gs hg
  rw [ho.unique b1, ho'.unique b2]
  obtain ⟨s1, c1⟩ := c1 v
  obtain ⟨s2, c2⟩ := c2 v
  have hfil := forall₂_filter (fun f : Frame => f.header.vcid == v) (fun g : Frame => g.header.vcid == v) h (fun f g e => by rw [e.header])
  obtain ⟨s3, c3⟩ := collects_checked (hfil.imp fun f g e => ⟨e.1, by rw [beq_iff_eq.1 e.2]; exact hv⟩) rfl c2
  have := (c1.unique c3).1
  unfold packetsOf
  rw [this]

/-- `frame_decoder` on blocks with the headers of those that were received: it ends, with the same headers and gaps. -/
theorem records_frames (b : Build) (k : Codec) (o : RS.Opts) (U : List (List U8)) (gs : List Frame) (hd : Decodes b k o [] U gs) (blocks : List Block)
    (hsame : List.Forall₂ (fun d (c : Block) => VCDUHeader.decode d = VCDUHeader.decode c.data) U blocks) :
    ∃ frames st, Collects (FrameDecoder.next b) (FrameDecoder.new blocks) frames (some st) ∧ frames.map (·.data) = blocks.map (·.data) ∧
      List.Forall₂ (fun f g => g.header = f.header ∧ g.missing = f.missing ∧ f.integrity = none) frames gs := by
  -- what is known of the frame at each place
  have hat : ∀ (U : List (List U8)) (gs : List Frame) (before : List (List U8)), Decodes b k o before U gs → gs.length = U.length ∧
      ∀ i d g, U[i]? = some d → gs[i]? = some g → ∃ f, FrameOf b ((before ++ U.take i).map blk) (blk d) f ∧ RS.job k o f = .ret g := by
    intro U
    induction U with
    | nil =>
      intro gs before h
      cases gs with
      | nil => exact ⟨rfl, fun i d g e _ => by simp at e⟩
      | cons g gs => exact h.elim
    | cons rx U ih =>
      intro gs before h
      cases gs with
      | nil => exact h.elim
      | cons g gs =>
        obtain ⟨h1, h2⟩ := h
        obtain ⟨i1, i2⟩ := ih gs _ h2
        refine ⟨by simp [i1], ?_⟩
        intro i d g' e1 e2
        cases i with
        | zero =>
          simp only [List.getElem?_cons_zero, Option.some.injEq] at e1 e2
          subst e1 e2
          simpa using h1
        | succ i =>
          simp only [List.getElem?_cons_succ] at e1 e2
          obtain ⟨f, f1, f2⟩ := i2 i d g' e1 e2
          exact ⟨f, by simpa using f1, f2⟩
  obtain ⟨hgl, hat⟩ := hat U gs [] hd
  have hul : U.length = blocks.length := hsame.length_eq
  have hlast : ∀ i v, lastOfChannel ((U.take i).map blk) v = lastOfChannel (blocks.take i) v := by
    intro i v
    refine lastOfChannel_alike ?_ v
    rw [List.forall₂_map_left_iff]
    exact List.forall₂_take i hsame
  have hdec : ∀ (i : Nat) (d : List U8) (c : Block), U[i]? = some d → blocks[i]? = some c → VCDUHeader.decode d = VCDUHeader.decode c.data := by
    intro i d c e1 e2
    obtain ⟨l1, e1⟩ := List.getElem?_eq_some_iff.1 e1
    obtain ⟨l2, e2⟩ := List.getElem?_eq_some_iff.1 e2
    have := hsame.get l1 l2
    simp only [List.get_eq_getElem] at this
    rw [e1, e2] at this
    exact this
  have hget : ∀ i, i < blocks.length → ∃ d c g f, U[i]? = some d ∧ blocks[i]? = some c ∧ gs[i]? = some g ∧ FrameOf b ((U.take i).map blk) (blk d) f ∧ RS.job k o f = .ret g ∧ VCDUHeader.decode d = VCDUHeader.decode c.data := by
    intro i hi
    have h1 : U[i]? = some U[i] := List.getElem?_eq_getElem (by omega)
    have h2 : blocks[i]? = some blocks[i] := List.getElem?_eq_getElem hi
    have h3 : gs[i]? = some gs[i] := List.getElem?_eq_getElem (by omega)
    obtain ⟨f, f1, f2⟩ := hat i _ _ h1 h3
    exact ⟨_, _, _, f, h1, h2, h3, f1, f2, hdec i _ _ h1 h2⟩
  obtain ⟨frames, e, hc, hle, hof, he⟩ := C35_frames b blocks
  cases e with
  | none =>
    exfalso
    obtain ⟨c, h, q, e1, e2, e3, e4, e5⟩ := he
    obtain ⟨d, c', g, f, g1, g2, g3, g4, g5, g6⟩ := hget frames.length (List.getElem?_eq_some_iff.1 e1).1
    rw [e1] at g2
    cases g2
    obtain ⟨k1, _, _, k4⟩ := g4
    have k1 : VCDUHeader.decode d = some f.header := k1
    rw [g6, e2] at k1
    cases k1
    rw [hlast, e4] at k4
    simp only [if_neg e3] at k4
    rw [e5] at k4
    cases k4
  | some st =>
    have hlen : frames.length = blocks.length := by
      rcases he with ⟨h, _⟩ | ⟨c, e1, e2, _⟩
      · exact h
      · exfalso
        obtain ⟨d, c', g, f, g1, g2, g3, g4, g5, g6⟩ := hget frames.length (List.getElem?_eq_some_iff.1 e1).1
        rw [e1] at g2
        cases g2
        have k1 : VCDUHeader.decode d = some f.header := g4.1
        rw [g6, e2] at k1
        cases k1
    refine ⟨frames, st, hc, ?_, ?_⟩
    · refine List.ext_getElem (by simp [hlen]) fun i h1 h2 => ?_
      simp only [List.length_map] at h1 h2
      simp only [List.getElem_map]
      exact (hof i _ _ (List.getElem?_eq_getElem h2) (List.getElem?_eq_getElem h1)).2.1
    · rw [List.forall₂_iff_get]
      refine ⟨by omega, fun i h1 h2 => ?_⟩
      simp only [List.get_eq_getElem]
      obtain ⟨d, c, g, f, g1, g2, g3, g4, g5, g6⟩ := hget i (by omega)
      obtain ⟨j1, j2, j3, j4⟩ := hof i c _ g2 (List.getElem?_eq_getElem h1)
      rw [List.getElem?_eq_getElem h2] at g3
      rw [Option.some.inj g3]
      obtain ⟨jh, jm⟩ := job_header g5
      obtain ⟨k1, _, _, k4⟩ := g4
      have k1 : VCDUHeader.decode d = some f.header := k1
      rw [g6, j1] at k1
      have k1 := Option.some.inj k1
      refine ⟨by rw [jh, k1], ?_, j3⟩
      rw [jm]
      rw [hlast, ← k1] at k4
      generalize lastOfChannel (blocks.take i) frames[i].header.vcid = q at j4 k4
      cases q with
      | none => rw [j4, k4]
      | some q =>
        simp only at j4 k4
        split at j4
        · rename_i hv
          rw [if_pos hv] at k4
          rw [j4, k4]
        · rename_i hv
          rw [if_neg hv] at k4
          rw [j4] at k4
          exact (Outcome.ret.inj k4).symm

/-! ### What is on the file -/

theorem exists_smooth (S : List U8) : ∃ r, Smooth r S := by
  by_cases h : S = []
  · subst h
    exact ⟨⟨[], .eof⟩, by intro e he; simp at he, rfl, rfl⟩
  · exact ⟨_, oneChunk_smooth S h⟩

theorem unit_block (t : Transmitter) (packets : List (List U8)) (v : BitVec 6) (n : Nat) : t.unrand ((t.cadu packets v n).drop 4) = t.block packets v n := by
  rw [cadu_eq, List.drop_left' (by rfl), unrand_unrand]

/-- C132. A spacecraft sends space packets as in C117. Some of its frames, as they were sent, are on a file one after another, without markers and check symbols (fill frames may be
among them, with any content). The file is read back in records of the frame size, and these are given to `frame_decoder` and the frames to `packet_decoder`. Both end; each record
becomes a frame, and of each channel exactly those packets come out all bytes of which are in frames on the file, unaltered, in order and each once, as if the frames not on file had
been lost on the link (with the same reservations about counters that roll over). -/
theorem C132_reread (b : Build) (t : Transmitter) (ht : t.Valid) (packets : BitVec 6 → List (List U8)) (hp : ∀ v, ∀ q ∈ packets v, IsPacket q)
    (slots : List (BitVec 6)) (hsent : ∀ v, v ≠ 63 → slots.count v * t.zoneSize ≤ (packets v).flatten.length)
    (hcount : ∀ v, v ≠ 63 → slots.count v ≤ 2 ^ 24)
    (hchecks : b.overflowChecks = true → ∀ v, v ≠ 63 → t.counter v 0 + slots.count v ≤ 2 ^ 24)
    (kept : List Bool) (hkept : kept.length = slots.length)
    (hnoticed : ∀ v, v ≠ 63 → ∀ n a c, (fatesOf slots (onFile kept) v)[n]? = some a → (fatesOf slots (onFile kept) v)[n + 1]? = some .lost →
      (fatesOf slots (onFile kept) v)[n + 2]? = some c → t.counter v (n + 1) = 2 ^ 24 - 1 ∨ t.counter v (n + 1) = 0 → a = .lost ∨ c = .lost)
    (blocks : List Block) (hb : List.Forall₂ (t.Recorded packets) (keptSlots slots kept) (blocks.map (·.data))) :
    ∃ frames st outs st', Collects (FrameDecoder.next b) (FrameDecoder.new blocks) frames (some st) ∧ frames.map (·.data) = blocks.map (·.data) ∧
      ByFrame t.insertSize t.trailerSize frames outs ∧
      Collects FramedPackets.next (FramedPackets.new frames t.insertSize t.trailerSize) outs.flatten (some st') ∧
      ∀ v, v ≠ 63 → packetsOf (v.setWidth 16) frames outs =
        those (fun a e => t.whole (fatesOf slots (onFile kept) v) a e && !t.straddles v (slots.count v) a e) (packets v) := by
  have hnl : (number [] slots).length = slots.length := number_length _ _
  let L := (number [] slots).zip kept
  have hL1 : L.map (·.1) = number [] slots := List.map_fst_zip (by omega)
  have hL2 : L.map (·.2) = kept := List.map_snd_zip (by omega)
  let un := fun x : BitVec 6 × Nat => t.cadu (packets x.1) x.1 x.2
  let fate := fun x : (BitVec 6 × Nat) × Bool => if x.2 then Fate.received (un x.1) else .lost
  have hroom : ∀ x ∈ number [] slots, x.1 ≠ 63 → (x.2 + 1) * t.zoneSize ≤ (packets x.1).flatten.length := fun x hx hv =>
    Nat.le_trans (Nat.mul_le_mul_right _ (number_lt slots x hx).2) (hsent x.1 hv)
  have hkmem : ∀ x ∈ keptSlots slots kept, x ∈ number [] slots := by
    intro x hx
    obtain ⟨y, hy, rfl⟩ := List.mem_map.1 hx
    exact (List.of_mem_zip (List.mem_filter.1 hy).1).1
  -- the same frames on a link that loses the others
  have hfates : List.Forall₂ t.Befalls (t.cadus packets slots) (L.map fate) := by
    unfold cadus
    rw [← hL1, List.map_map, List.forall₂_map_left_iff, List.forall₂_map_right_iff]
    refine List.forall₂_same.2 fun x _ => ?_
    show t.Befalls (un x.1) (fate x)
    by_cases hx : x.2 = true
    · show t.Befalls (un x.1) (if x.2 then Fate.received (un x.1) else .lost)
      rw [if_pos hx]
      exact noisy_refl t _
    · show t.Befalls (un x.1) (if x.2 then Fate.received (un x.1) else .lost)
      rw [if_neg hx]
      trivial
  have hbytes : (L.map fate).flatMap Fate.bytes = (keptSlots slots kept).map un := by
    show (L.map fate).flatMap Fate.bytes = ((L.filter fun x => x.2).map (·.1)).map un
    generalize L = M
    induction M with
    | nil => rfl
    | cons x M ih =>
      rw [List.map_cons, List.flatMap_cons, ih, List.filter_cons]
      by_cases hx : x.2 = true
      · rw [if_pos hx, show fate x = Fate.received (un x.1) from if_pos hx]; rfl
      · rw [if_neg hx, show fate x = Fate.lost from if_neg hx]; rfl
  have hloss : List.Forall₂ SameLoss (L.map fate) (onFile kept) := by
    unfold onFile
    rw [← hL2, List.map_map, List.forall₂_map_left_iff, List.forall₂_map_right_iff]
    refine List.forall₂_same.2 fun x _ => ?_
    show SameLoss (if x.2 then Fate.received (un x.1) else .lost) (if x.2 then Fate.received [] else .lost)
    cases x.2
    · exact .inl ⟨rfl, rfl⟩
    · exact .inr ⟨rfl, rfl⟩
  have hlossv := fun v => fatesOf_sameLoss v slots _ _ hloss
  have hat : ∀ v (n : Nat) (f : Fate), (fatesOf slots (L.map fate) v)[n]? = some f → ∃ g, (fatesOf slots (onFile kept) v)[n]? = some g ∧ SameLoss f g := by
    intro v n f e
    obtain ⟨l, e⟩ := List.getElem?_eq_some_iff.1 e
    have l' : n < (fatesOf slots (onFile kept) v).length := by rw [← (hlossv v).length_eq]; exact l
    have := (hlossv v).get l l'
    simp only [List.get_eq_getElem] at this
    rw [e] at this
    exact ⟨_, List.getElem?_eq_getElem l', this⟩
  have hnoticed' : ∀ v, v ≠ 63 → ∀ n a c, (fatesOf slots (L.map fate) v)[n]? = some a → (fatesOf slots (L.map fate) v)[n + 1]? = some .lost →
      (fatesOf slots (L.map fate) v)[n + 2]? = some c → t.counter v (n + 1) = 2 ^ 24 - 1 ∨ t.counter v (n + 1) = 0 → a = .lost ∨ c = .lost := by
    intro v hv n a c e1 e2 e3 h
    obtain ⟨a', e1', s1⟩ := hat v n a e1
    obtain ⟨l', e2', s2⟩ := hat v _ _ e2
    obtain ⟨c', e3', s3⟩ := hat v _ _ e3
    rw [s2.lost.1 rfl] at e2'
    rw [s1.lost, s3.lost]
    exact hnoticed v hv n a' c' e1' e2' e3' h
  obtain ⟨r, hr⟩ := exists_smooth ((keptSlots slots kept).map un).flatten
  obtain ⟨units, post, S, hunits, hgapless, hpost, hS, hr⟩ := records_plain r _ hr
  rw [← hbytes] at hunits
  obtain ⟨o, hI, hvf, hcorr⟩ : ∃ o : RS.Opts, o.interleave.toNat = t.depth ∧ o.virtualFill = t.fill ∧ o.correct = true := by
    refine ⟨⟨BitVec.ofNat 8 t.depth, t.fill, true, true⟩, ?_, rfl, rfl⟩
    show (BitVec.ofNat 8 t.depth).toNat = t.depth
    rw [BitVec.toNat_ofNat, Nat.mod_eq_of_lt]
    have := ht.depth.2
    omega
  obtain ⟨hinit, hruns⟩ := C117_received b (bddCodec ccsdsCode) C113_distance.2 t ht packets hp slots hsent hcount hchecks (L.map fate) hfates hnoticed' units hunits post hgapless hpost S hS
    r hr o hI hvf hcorr ⟨1, 1⟩
  obtain ⟨s, hs, hend⟩ := (hruns _ hinit).2.1 (by decide) (by decide)
  obtain ⟨hlen, outs, st, hby, _, hpk⟩ := (hruns s hs).2.2 hend
  have hrec : Records r ((L.map fate).flatMap Fate.bytes) := ⟨units, post, S, hunits, hgapless, hpost, hS, hr⟩
  obtain ⟨hshow, _, _⟩ := (C127_frames b (bddCodec ccsdsCode) C113_distance.2 t ht packets slots hsent hchecks (L.map fate) hfates r hrec o hI hvf ⟨1, 1⟩).2 s hs hend
  -- the blocks received
  have hub : ∀ u ∈ units, u.2 = marker ++ u.2.drop 4 ∧ (u.2.drop 4).length = t.blockSize := by
    intro u hu
    have : u.2 ∈ (L.map fate).flatMap Fate.bytes := by rw [← hunits]; exact List.mem_map.2 ⟨u, hu, rfl⟩
    rw [hbytes] at this
    obtain ⟨x, hx, e⟩ := List.mem_map.1 this
    rw [← e]
    exact (start_intact t ht _ _ _ (hroom x (hkmem x hx)) (un x) rfl rfl).2
  have hcarries := link_carries t units post hub hgapless hpost S hS
  have hff := fill_frame t ht
  have hbf : t.blockSize = t.frameSize + 32 * t.depth := rfl
  have hdep := ht.depth.1
  obtain ⟨_, hstage⟩ := stage_decodes b (bddCodec ccsdsCode) ccsdsCode C113_distance.2 t.randomized o ⟨1, 1⟩ (by rw [hI]; omega) (by rw [hI, hvf]; omega) r S t.blockSize
    _ post hr hcarries (by rw [hI, hvf]; omega)
  obtain ⟨_, hD⟩ := (hstage s hs).2 hend
  have hU : (units.map fun u => (u.1, t.unrand (u.2.drop 4))).map (·.2) = (keptSlots slots kept).map fun x => t.block (packets x.1) x.1 x.2 := by
    have : (units.map fun u => (u.1, t.unrand (u.2.drop 4))).map (·.2) = (units.map (·.2)).map fun rx => t.unrand (rx.drop 4) := by rw [List.map_map, List.map_map]; rfl
    rw [this, hunits, hbytes, List.map_map]
    refine List.map_congr_left fun x _ => ?_
    exact unit_block t _ _ _
  rw [hU, List.take_of_length_le (by rw [hlen, ← hU]; simp)] at hD
  -- the records on file
  have hsize : ∀ x ∈ keptSlots slots kept, (t.frame (packets x.1) x.1 x.2).length = t.frameSize := fun x hx => frame_length t ht _ _ _ (hroom x (hkmem x hx))
  have hb' : List.Forall₂ (fun x (c : Block) => t.Recorded packets x c.data) (keptSlots slots kept) blocks := by
    rw [List.forall₂_map_right_iff] at hb; exact hb
  have hsix : 6 ≤ t.frameSize := by unfold frameSize; omega
  obtain ⟨frames, st2, hc, hdata, hsame⟩ := records_frames b (bddCodec ccsdsCode) o _ s.got hD blocks (by
    rw [List.forall₂_map_left_iff]
    refine (List.forall₂_and_left (p := fun x => x ∈ keptSlots slots kept) _ _).2 ⟨fun x hx => hx, hb'⟩ |>.imp ?_
    rintro x c ⟨hx, hrec⟩
    refine (C33_prefix c.data _ (by rw [hrec.size]; exact hsix) ?_).symm
    rw [hrec.header]
    unfold block
    rw [List.take_append_of_le_length (by rw [hsize x hx]; exact hsix)])
  have hfr : List.Forall₂ (fun x (f : Frame) => t.Recorded packets x f.data) (keptSlots slots kept) frames := by
    rw [← hdata, List.forall₂_map_right_iff] at hb; exact hb
  have hheard : heardSlots slots (L.map fate) = (keptSlots slots kept).map fun x => (x, Fate.received (un x)) := by
    show ((number [] slots).zip (L.map fate)).filter (fun x => x.2.heard) = ((L.filter fun x => x.2).map (·.1)).map fun x => (x, Fate.received (un x))
    rw [show (number [] slots).zip (L.map fate) = (L.map (·.1)).zip (L.map fate) by rw [hL1]]
    generalize L = M
    induction M with
    | nil => rfl
    | cons x M ih =>
      rw [List.map_cons, List.map_cons, List.zip_cons_cons, List.filter_cons, ih, List.filter_cons]
      by_cases hx : x.2 = true
      · rw [if_pos hx, show fate x = Fate.received (un x.1) from if_pos hx]; rfl
      · rw [if_neg hx, show fate x = Fate.lost from if_neg hx]; rfl
  rw [hheard, List.forall₂_map_left_iff] at hshow
  have hchk : List.Forall₂ AsChecked frames s.got := by
    refine (forall₂_both (T := fun g f => AsChecked f g) ?_ hshow.flip hsame.flip hfr.flip).flip
    rintro g x f hsh ⟨e1, e2, e3⟩ hrec
    refine ⟨e1, e2, e3, fun hv => ?_⟩
    have hx : x.1 ≠ 63 := by
      intro e
      have := hsh.vcid
      rw [show (x, Fate.received (un x)).1.1 = x.1 from rfl, e] at this
      exact hv this
    have hus : t.usable packets o.correct (x, Fate.received (un x)) = true := by
      show (o.correct || _) = true
      rw [hcorr]; rfl
    refine ⟨?_, ?_⟩
    · rw [hsh.sent hx hus]; exact (hrec.frame hx).symm
    · rw [hsh.integrity]
      unfold verdict
      rw [if_neg hx]
      show some (if un x = t.cadu (packets x.1) x.1 x.2 then Integrity.ok else if o.correct then .corrected else .notCorrected) = _
      rw [if_pos rfl]
  have hlongf : ∀ f ∈ frames, ¬ Short t.insertSize t.trailerSize f := by
    intro f hf
    obtain ⟨x, _, hx⟩ := forall₂_mem_right hfr f hf
    unfold Short
    rw [hx.size]
    unfold frameSize
    omega
  have hlongg : ∀ g ∈ s.got, ¬ Short t.insertSize t.trailerSize g := by
    intro g hg
    obtain ⟨x, hx, hsh⟩ := forall₂_mem_right hshow g hg
    unfold Short
    by_cases h63 : x.1 = 63
    · have := hsh.left (fun h => absurd h63 h) (un x) (by simp [Fate.bytes])
      rw [this]
      have hl : (t.blockIn (un x)).length = t.blockSize := by
        rw [show t.blockIn (un x) = t.block (packets x.1) x.1 x.2 from unit_block t _ _ _, block_length t ht _ _ _ (hroom x (hkmem x hx))]
      rw [hl]
      unfold blockSize frameSize
      omega
    · rw [hsh.sent h63 (by show (o.correct || _) = true; rw [hcorr]; rfl)]
      show ¬ (t.frame (packets x.1) x.1 x.2).length < _
      rw [hsize x hx]
      unfold frameSize
      omega
  obtain ⟨outs2, hby2, ⟨st3, hc2⟩, _⟩ := C47_channels t.insertSize t.trailerSize frames hlongf
  refine ⟨frames, st2, outs2, st3, hc, hdata, hby2, hc2, fun v hv => ?_⟩
  rw [packetsOf_checked hchk hlongf hlongg hby2 hby _ (fun e => hv (wide_inj (w := 63#6) e)), hpk v hv]
  congr 1
  funext a e
  rw [whole_sameLoss t (hlossv v) a e]

/-! ### The output file of `ccsds framing` -/

/-- The command writes a record for this data unit: its channel is asked for, and the frame can be had (fill: it was received). -/
def Spec.Transmitter.goesToFile (t : Transmitter) (packets : BitVec 6 → List (List U8)) (a : Framing.Args) (x : (BitVec 6 × Nat) × Fate) : Bool :=
  asksFor a x.1.1 && (if x.1.1 = 63 then x.2.heard else t.usable packets a.correct x)

/-- For every slot, whether the command writes a record for it. -/
def Spec.Transmitter.filed (t : Transmitter) (packets : BitVec 6 → List (List U8)) (a : Framing.Args) (slots : List (BitVec 6)) (fates : List Fate) : List Bool :=
  ((number [] slots).zip fates).map (t.goesToFile packets a)

/-- A file can be cut into records of one size in only one way. -/
theorem records_unique {n : Nat} (hn : 0 < n) : ∀ (as bs : List (List U8)), (∀ a ∈ as, a.length = n) → (∀ c ∈ bs, c.length = n) → as.flatten = bs.flatten → as = bs := by
  intro as
  induction as with
  | nil =>
    intro bs _ h2 e
    cases bs with
    | nil => rfl
    | cons c bs =>
      have := congrArg List.length e
      have hc := h2 c (by simp)
      simp only [List.flatten_nil, List.length_nil, List.flatten_cons, List.length_append] at this
      omega
  | cons a as ih =>
    intro bs h1 h2 e
    cases bs with
    | nil =>
      have := congrArg List.length e
      have hc := h1 a (by simp)
      simp only [List.flatten_nil, List.length_nil, List.flatten_cons, List.length_append] at this
      omega
    | cons c bs =>
      have ha := h1 a (by simp)
      have hc := h2 c (by simp)
      rw [List.flatten_cons, List.flatten_cons] at e
      obtain ⟨e1, e2⟩ := List.append_inj e (by omega)
      rw [e1, ih bs (fun x hx => h1 x (by simp [hx])) (fun x hx => h2 x (by simp [hx])) e2]

theorem block_start (t : Transmitter) (ht : t.Valid) (packets : List (List U8)) (v : BitVec 6) (n : Nat) (h : v ≠ 63 → (n + 1) * t.zoneSize ≤ packets.flatten.length)
    (rx : List U8) (hs : rx.take 10 = (t.cadu packets v n).take 10) : (t.blockIn rx).take 6 = (t.frame packets v n).take 6 := by
  have e : ∀ l : List U8, (l.drop 4).take 6 = (l.take 10).drop 4 := fun l => by rw [List.drop_take]
  show (t.unrand (rx.drop 4)).take 6 = _
  rw [unrand_take, e, hs, ← e, ← unrand_take, unit_block]
  unfold block
  have := frame_length t ht packets v n h
  rw [List.take_append_of_le_length (by rw [this]; unfold frameSize; omega)]

/-- What is written, slot by slot. -/
theorem filed_recorded (t : Transmitter) (ht : t.Valid) (packets : BitVec 6 → List (List U8)) (a : Framing.Args) (M : List ((BitVec 6 × Nat) × Fate))
    (hroom : ∀ x ∈ M, x.1.1 ≠ 63 → (x.1.2 + 1) * t.zoneSize ≤ (packets x.1.1).flatten.length)
    (hb : ∀ x ∈ M, t.Befalls (t.cadu (packets x.1.1) x.1.1 x.1.2) x.2) :
    List.Forall₂ (t.Recorded packets) ((((M.map (·.1)).zip (M.map (t.goesToFile packets a))).filter fun x => x.2).map (·.1))
      (((M.filter fun x => x.2.heard).filter fun x => asksFor a x.1.1).flatMap (t.toWrite packets a.correct)) := by
  induction M with
  | nil => exact .nil
  | cons x M ih =>
    have ih := ih (fun y hy => hroom y (by simp [hy])) (fun y hy => hb y (by simp [hy]))
    have hr := hroom x (by simp)
    have hx := hb x (by simp)
    rw [List.map_cons, List.map_cons, List.zip_cons_cons, List.filter_cons, List.filter_cons]
    by_cases ha : asksFor a x.1.1 = true
    · by_cases h63 : x.1.1 = 63
      · have hg : t.goesToFile packets a x = x.2.heard := by unfold goesToFile; rw [ha, if_pos h63]; rfl
        by_cases hh : x.2.heard = true
        · rw [if_pos (by rw [hg]; exact hh), if_pos hh, List.filter_cons, if_pos ha, List.map_cons, List.flatMap_cons]
          obtain ⟨rx, e⟩ := heard_single hh
          have hw : t.toWrite packets a.correct x = [(t.blockIn rx).take t.frameSize] := by
            unfold toWrite; rw [if_pos h63, e]; rfl
          have hst : rx.take 10 = (t.cadu (packets x.1.1) x.1.1 x.1.2).take 10 ∧ rx.length = (t.cadu (packets x.1.1) x.1.1 x.1.2).length := by
            cases hf : x.2 with
            | lost => rw [hf] at hh; cases hh
            | received y =>
              rw [hf] at e hx
              simp only [Fate.bytes, List.cons.injEq, and_true] at e
              rw [← e]
              exact ⟨hx.start, hx.length⟩
            | spoiled y =>
              rw [hf] at e hx
              simp only [Fate.bytes, List.cons.injEq, and_true] at e
              rw [← e]
              exact ⟨hx.start, hx.length⟩
          rw [hw]
          have hl : (t.blockIn rx).length = t.blockSize := by
            show (t.unrand (rx.drop 4)).length = _
            rw [unrand_length]
            exact (start_intact t ht _ _ _ hr rx hst.2 hst.1).2.2
          refine .cons ⟨?_, ?_, fun h => absurd h63 h⟩ ih
          · rw [List.length_take, hl]; unfold blockSize; omega
          · rw [List.take_take, Nat.min_eq_left (by unfold frameSize; omega)]
            exact block_start t ht _ _ _ hr rx hst.1
        · rw [if_neg (by rw [hg]; exact hh), if_neg hh]
          exact ih
      · have hg : t.goesToFile packets a x = t.usable packets a.correct x := by unfold goesToFile; rw [ha, if_neg h63]; rfl
        by_cases hu : t.usable packets a.correct x = true
        · have hh : x.2.heard = true := by
            cases hf : x.2 with
            | received y => rfl
            | spoiled y => unfold usable at hu; rw [hf] at hu; cases hu
            | lost => unfold usable at hu; rw [hf] at hu; cases hu
          rw [if_pos (by rw [hg]; exact hu), if_pos hh, List.filter_cons, if_pos ha, List.map_cons, List.flatMap_cons, toWrite_data _ _ _ _ h63, hu]
          exact .cons ⟨frame_length t ht _ _ _ hr, rfl, fun _ => rfl⟩ ih
        · rw [if_neg (by rw [hg]; exact hu)]
          by_cases hh : x.2.heard = true
          · rw [if_pos hh, List.filter_cons, if_pos ha, List.flatMap_cons, toWrite_data _ _ _ _ h63, if_neg hu]
            exact ih
          · rw [if_neg hh]
            exact ih
    · have hg : t.goesToFile packets a x = false := by
        unfold goesToFile
        rw [Bool.not_eq_true] at ha
        rw [ha]; rfl
      rw [if_neg (by rw [hg]; exact Bool.false_ne_true)]
      by_cases hh : x.2.heard = true
      · rw [if_pos hh, List.filter_cons, if_neg ha]
        exact ih
      · rw [if_neg hh]
        exact ih

/-- C132 (command). `ccsds framing` has run on the recording of a transmission over a bad link, as in C127, with an output file. The file is read back in records of the frame size,
and the records are given to `frame_decoder` and the frames to `packet_decoder`: of each channel that was asked for exactly those packets come out all bytes of which were sent in data
units that the command could use; of the other channels none. -/
theorem C132_command (b b' : Build) (k : Codec) (hk : Bounded k ccsdsCode) (t : Transmitter) (ht : t.Valid) (packets : BitVec 6 → List (List U8)) (hp : ∀ v, ∀ q ∈ packets v, IsPacket q)
    (slots : List (BitVec 6)) (hsent : ∀ v, v ≠ 63 → slots.count v * t.zoneSize ≤ (packets v).flatten.length)
    (hcount : ∀ v, v ≠ 63 → slots.count v ≤ 2 ^ 24)
    (hchecks : b.overflowChecks = true ∨ b'.overflowChecks = true → ∀ v, v ≠ 63 → t.counter v 0 + slots.count v ≤ 2 ^ 24)
    (fates : List Fate) (hfates : List.Forall₂ t.Befalls (t.cadus packets slots) fates) (r : Reader) (hr : Records r (fates.flatMap Fate.bytes))
    (a : Framing.Args) (ha : Suits a t) (hout : a.output = true)
    (hnoticed : ∀ v, v ≠ 63 → ∀ n f g, (fatesOf slots (onFile (t.filed packets a slots fates)) v)[n]? = some f → (fatesOf slots (onFile (t.filed packets a slots fates)) v)[n + 1]? = some .lost →
      (fatesOf slots (onFile (t.filed packets a slots fates)) v)[n + 2]? = some g → t.counter v (n + 1) = 2 ^ 24 - 1 ∨ t.counter v (n + 1) = 0 → f = .lost ∨ g = .lost)
    (workers : Nat) (s : Framing.Summary) (w : List (List U8)) (hrun : Framing.Runs b k a workers r s w)
    (blocks : List Block) (hfile : (blocks.map (·.data)).flatten = w.flatten) (hcut : ∀ c ∈ blocks, c.data.length = t.frameSize) :
    ∃ frames st outs st', Collects (FrameDecoder.next b') (FrameDecoder.new blocks) frames (some st) ∧ frames.map (·.data) = w ∧
      ByFrame t.insertSize t.trailerSize frames outs ∧
      Collects FramedPackets.next (FramedPackets.new frames t.insertSize t.trailerSize) outs.flatten (some st') ∧
      ∀ v, v ≠ 63 → packetsOf (v.setWidth 16) frames outs =
        those (fun i e => t.whole (fatesOf slots (onFile (t.filed packets a slots fates)) v) i e && !t.straddles v (slots.count v) i e) (packets v) := by
  have hw := ((C127_command b k hk t ht packets slots hsent (fun h => hchecks (.inl h)) fates hfates r hr a ha workers).2 s w hrun).1
  rw [if_pos hout] at hw
  have hfates' := hfates
  unfold cadus at hfates'
  rw [List.forall₂_map_left_iff] at hfates'
  have hnl : (number [] slots).length = slots.length := number_length _ _
  have hfl : (number [] slots).length = fates.length := hfates'.length_eq
  have hL1 : ((number [] slots).zip fates).map (·.1) = number [] slots := List.map_fst_zip (by omega)
  have hrec := filed_recorded t ht packets a ((number [] slots).zip fates) (fun x hx hv =>
    Nat.le_trans (Nat.mul_le_mul_right _ (number_lt slots x.1 (List.of_mem_zip hx).1).2) (hsent x.1.1 hv)) (fun x hx => (List.forall₂_iff_zip.1 hfates').2 hx)
  rw [hL1] at hrec
  have hrec : List.Forall₂ (t.Recorded packets) (keptSlots slots (t.filed packets a slots fates)) w := by rw [hw]; exact hrec
  have hblocks : blocks.map (·.data) = w := by
    refine records_unique (n := t.frameSize) (by unfold frameSize; omega) _ _ ?_ ?_ hfile
    · intro d hd
      obtain ⟨c, hc, rfl⟩ := List.mem_map.1 hd
      exact hcut c hc
    · intro d hd
      obtain ⟨x, _, h⟩ := forall₂_mem_right hrec d hd
      exact h.size
  obtain ⟨frames, st, outs, st', h1, h2, h3, h4, h5⟩ := C132_reread b' t ht packets hp slots hsent hcount (fun h => hchecks (.inr h)) (t.filed packets a slots fates)
    (by unfold filed; rw [List.length_map, List.length_zip]; omega) hnoticed blocks (by rw [hblocks]; exact hrec)
  exact ⟨frames, st, outs, st', h1, by rw [h2, hblocks], h3, h4, h5⟩

/-! A concrete case: the five frames of C127's example; three frames of channel 1 and a fill frame with damaged content are on the file, the last frame of channel 1 is not. The first
packet, which fills the three frames, comes out, and the second, of which only a part was sent, does not. -/
namespace FramingEx

def onTape : List Bool := [true, true, true, true, false]
def badFill : List U8 := (tx.primaryHeader 63#6 0) ++ List.replicate 102 0xee#8

theorem tape_slots : keptSlots slots onTape = [(1#6, 0), (1#6, 1), (1#6, 2), (63#6, 0)] := by decide

theorem room (n : Nat) (hn : n < 4) : (n + 1) * tx.zoneSize ≤ (exTxPackets 1#6).flatten.length :=
  Nat.le_trans (Nat.mul_le_mul_right _ (show n + 1 ≤ slots.count 1#6 from by have : slots.count 1#6 = 4 := by decide
                                                                             omega)) (sent 1#6 (by decide))

theorem tape (h0 : badFill.length = 108) : List.Forall₂ (tx.Recorded exTxPackets) (keptSlots slots onTape)
    [tx.frame (exTxPackets 1#6) 1#6 0, tx.frame (exTxPackets 1#6) 1#6 1, tx.frame (exTxPackets 1#6) 1#6 2, badFill] := by
  rw [tape_slots]
  have h : ∀ n, n < 4 → tx.Recorded exTxPackets (1#6, n) (tx.frame (exTxPackets 1#6) 1#6 n) := fun n hn => ⟨frame_length tx tx_valid _ _ _ (fun _ => room n hn), rfl, fun _ => rfl⟩
  refine .cons (h 0 (by decide)) (.cons (h 1 (by decide)) (.cons (h 2 (by decide)) (.cons ⟨h0, ?_, fun h => absurd rfl h⟩ .nil)))
  unfold badFill frame
  rw [List.append_assoc, List.append_assoc, List.take_append_of_le_length (by decide), List.take_append_of_le_length (by decide)]

theorem tape_count (v : BitVec 6) : slots.count v ≤ 2 ^ 24 := by
  have := counters v
  omega

theorem tape_noticed (v : BitVec 6) (n : Nat) : ¬ (tx.counter v (n + 1) = 2 ^ 24 - 1 ∨ tx.counter v (n + 1) = 0) ∨ 10 ≤ n := by
  by_cases h : 10 ≤ n
  · exact .inr h
  · refine .inl ?_
    show ¬ ((77 + (n + 1)) % 2 ^ 24 = 2 ^ 24 - 1 ∨ (77 + (n + 1)) % 2 ^ 24 = 0)
    omega

theorem exTx_lengths : exP1.length = 300 ∧ exP2.length = 130 := by decide +kernel

example (b : Build) : ∃ frames st outs st', Collects (FrameDecoder.next b) (FrameDecoder.new ([tx.frame (exTxPackets 1#6) 1#6 0, tx.frame (exTxPackets 1#6) 1#6 1,
      tx.frame (exTxPackets 1#6) 1#6 2, badFill].map blk)) frames (some st) ∧ ByFrame 0 0 frames outs ∧
    Collects FramedPackets.next (FramedPackets.new frames 0 0) outs.flatten (some st') ∧ packetsOf 1 frames outs = [exP1] := by
  obtain ⟨frames, st, outs, st', h1, _, h3, h4, h5⟩ := C132_reread b tx tx_valid exTxPackets exTxPackets_packets slots sent (fun v _ => tape_count v) (fun _ v _ => counters v) onTape rfl
    (by
      intro v _ n f g e1 _ _ h
      rcases tape_noticed v n with h' | h'
      · exact absurd h h'
      · exfalso
        have := (List.getElem?_eq_some_iff.1 e1).1
        have hl := fatesOf_length v slots (onFile onTape) rfl
        have h1 : slots.count v ≤ slots.length := List.count_le_length
        have h2 : slots.length = 5 := rfl
        omega)
    ([tx.frame (exTxPackets 1#6) 1#6 0, tx.frame (exTxPackets 1#6) 1#6 1, tx.frame (exTxPackets 1#6) 1#6 2, badFill].map blk)
    (by
      rw [List.map_map]
      exact tape (by decide +kernel))
  refine ⟨frames, st, outs, st', h1, h3, h4, ?_⟩
  rw [show (1 : U16) = (1#6 : BitVec 6).setWidth 16 from rfl, h5 1#6 (by decide), show exTxPackets 1#6 = [exP1, exP2] from rfl]
  obtain ⟨l1, l2⟩ := exTx_lengths
  unfold those
  rw [show starts 0 [exP1, exP2] = [0, 300] by simp [starts, l1]]
  simp only [List.zip_cons_cons, List.zip_nil_right, List.filter_cons, List.filter_nil, l1, l2]
  rw [if_pos (by decide +kernel), if_neg (by decide +kernel)]
  rfl

/-! The same with the command: channel 1 is received but for its last frame, one byte is wrong. What it writes, read back in records of 108 bytes, gives the first packet. -/
def goodFates : List Fate := [.received (unit 1 0), .received (unit 1 1), .received ((unit 1 2).set 100 7), .received (unit 63 0), .lost]

theorem good_befalls : List.Forall₂ tx.Befalls (tx.cadus exTxPackets slots) goodFates := by
  have hn : number [] slots = [(1#6, 0), (1#6, 1), (1#6, 2), (63#6, 0), (1#6, 3)] := by decide
  unfold cadus
  rw [hn]
  simp only [List.map_cons, List.map_nil]
  unfold goodFates unit
  have h0 := noisy_refl tx (tx.cadu (exTxPackets 1#6) 1#6 0)
  have h3 := noisy_refl tx (tx.cadu (exTxPackets 1#6) 1#6 1)
  have h1 := noisy_set tx (tx.cadu (exTxPackets 1#6) 1#6 2) 100 7#8 (by omega)
  have h2 := noisy_refl tx (tx.cadu (exTxPackets 63#6) 63#6 0)
  exact .cons h0 (.cons h3 (.cons h1 (.cons h2 (.cons trivial .nil))))

theorem good_filed : tx.filed exTxPackets args slots goodFates = [true, true, true, false, false] := by
  have hn : number [] slots = [(1#6, 0), (1#6, 1), (1#6, 2), (63#6, 0), (1#6, 3)] := by decide
  have h1 : ∀ n rx, tx.goesToFile exTxPackets args ((1#6, n), .received rx) = true := by
    intro n rx
    unfold goesToFile
    rw [usable_received, if_neg (show ¬ (1#6 : BitVec 6) = 63 by decide), show args.correct = true from rfl, show asksFor args 1#6 = true from by decide]
    rfl
  have h2 : ∀ n f, tx.goesToFile exTxPackets args ((63#6, n), f) = false := by
    intro n f
    unfold goesToFile
    rw [show asksFor args 63#6 = false from by decide]
    rfl
  have h3 : tx.goesToFile exTxPackets args ((1#6, 3), .lost) = false := rfl
  unfold filed goodFates
  rw [hn]
  simp only [List.zip_cons_cons, List.zip_nil_right, List.map_cons, List.map_nil, h1, h2, h3]

example (b : Build) (r : Reader) (hr : Smooth r (unit 1 0 ++ unit 1 1 ++ (unit 1 2).set 100 7 ++ unit 63 0)) :
    (∃ s w, Framing.Runs b (bddCodec ccsdsCode) args 2 r s w) ∧
    ∀ s w blocks, Framing.Runs b (bddCodec ccsdsCode) args 2 r s w → (blocks.map (·.data)).flatten = w.flatten → (∀ c ∈ blocks, c.data.length = 108) →
      ∃ frames st outs st', Collects (FrameDecoder.next b) (FrameDecoder.new blocks) frames (some st) ∧ ByFrame 0 0 frames outs ∧
        Collects FramedPackets.next (FramedPackets.new frames 0 0) outs.flatten (some st') ∧ packetsOf 1 frames outs = [exP1] := by
  have hrec : Records r (goodFates.flatMap Fate.bytes) := by
    have : goodFates.flatMap Fate.bytes = [unit 1 0, unit 1 1, (unit 1 2).set 100 7, unit 63 0] := rfl
    rw [this]
    exact records_plain r _ (by simpa using hr)
  refine ⟨(C127_command b (bddCodec ccsdsCode) C113_distance.2 tx tx_valid exTxPackets slots sent (fun _ v _ => counters v) goodFates good_befalls r hrec args suits 2).1 (by decide), ?_⟩
  intro s w blocks hrun hfile hcut
  obtain ⟨frames, st, outs, st', h1, _, h3, h4, h5⟩ := C132_command b b (bddCodec ccsdsCode) C113_distance.2 tx tx_valid exTxPackets exTxPackets_packets slots sent (fun v _ => tape_count v)
    (fun _ v _ => counters v) goodFates good_befalls r hrec args suits rfl
    (by
      rw [good_filed]
      intro v _ n f g e1 _ _ h
      rcases tape_noticed v n with h' | h'
      · exact absurd h h'
      · exfalso
        have := (List.getElem?_eq_some_iff.1 e1).1
        have hl := fatesOf_length v slots (onFile [true, true, true, false, false]) rfl
        have h1 : slots.count v ≤ slots.length := List.count_le_length
        have h2 : slots.length = 5 := rfl
        omega) 2 s w hrun blocks hfile hcut
  refine ⟨frames, st, outs, st', h1, h3, h4, ?_⟩
  rw [show (1 : U16) = (1#6 : BitVec 6).setWidth 16 from rfl, h5 1#6 (by decide), show exTxPackets 1#6 = [exP1, exP2] from rfl, good_filed]
  obtain ⟨l1, l2⟩ := exTx_lengths
  unfold those
  rw [show starts 0 [exP1, exP2] = [0, 300] by simp [starts, l1]]
  simp only [List.zip_cons_cons, List.zip_nil_right, List.filter_cons, List.filter_nil, l1, l2]
  rw [if_pos (by decide +kernel), if_neg (by decide +kernel)]
  rfl

end FramingEx
end Ccsds
