import Verif.Proofs.Streaming
import Verif.Props.Sync
import Verif.Props.RsStage
/-!
# C68, C69: live streams
-/
namespace Ccsds
open Spec

/-! ## C68  What is yielded from the beginning of a stream does not depend on, or wait for, the rest

`Takes next s items t`: calling `next` once per item yields `items` and leaves state `t`. -/

/-- `decode_packets`: what is obtained from a reader that ends after `evs` is obtained from every reader that goes on after `evs`, and leaves everything
that comes later unread. -/
theorem C68_decode_packets (evs more : List Ev) (t : Tail) (items : List (Except Error Packet)) (s : PacketDecoder)
    (h : Takes PacketDecoder.next (PacketDecoder.new ⟨evs, .eof⟩) items s) :
    Takes PacketDecoder.next (PacketDecoder.new ⟨evs ++ more, t⟩) items ⟨⟨s.reader.script ++ more, t⟩, s.offset⟩ := by
  have key : ∀ s0 : PacketDecoder, s0.reader.tail = .eof → Takes PacketDecoder.next s0 items s →
      Takes PacketDecoder.next ⟨s0.reader.andThen more t, s0.offset⟩ items ⟨s.reader.andThen more t, s.offset⟩ := by
    clear h
    intro s0 ht h
    induction h with
    | nil => exact .nil
    | cons h _ ih =>
      obtain ⟨e1, e2⟩ := PacketDecoder.next_andThen ht h more t
      exact .cons e1 (ih e2)
  exact key _ rfl h

/-- So the packets of a part of a recording are the first packets of the recording. -/
theorem C68_decode_packets_prefix (evs more : List Ev) (t : Tail) (items all : List (Except Error Packet)) (e e' : Option PacketDecoder)
    (h : Collects PacketDecoder.next (PacketDecoder.new ⟨evs, .eof⟩) items e)
    (h' : Collects PacketDecoder.next (PacketDecoder.new ⟨evs ++ more, t⟩) all e') : items <+: all := by
  obtain ⟨s, hs⟩ := h.takes
  exact (C68_decode_packets evs more t items s hs).prefix h'

/-- `frame_decoder`. -/
theorem C68_frame_decoder (b : Build) (cadus more : List Block) (items : List Frame) (s : FrameDecoder.State)
    (h : Takes (FrameDecoder.next b) (FrameDecoder.new cadus) items s) :
    Takes (FrameDecoder.next b) (FrameDecoder.new (cadus ++ more)) items ⟨s.counters, s.cadus ++ more⟩ :=
  h.simulate (fun s => ⟨s.counters, s.cadus ++ more⟩) fun _ _ _ h => FrameDecoder.next_append h more

/-- `packet_decoder`. -/
theorem C68_packet_decoder (frames more : List Frame) (izone trailer : Nat) (items : List Packet) (s : FramedPackets.State)
    (h : Takes FramedPackets.next (FramedPackets.new frames izone trailer) items s) :
    Takes FramedPackets.next (FramedPackets.new (frames ++ more) izone trailer) items { s with frames := s.frames ++ more } :=
  h.simulate (fun s => { s with frames := s.frames ++ more }) fun _ _ _ h => FramedPackets.next_append h more

theorem groups_ext {s s' s'' : PacketGroupIter} {g g' : Except Error PacketGroup} (h : PacketGroupIter.next s = .ret (some g, s'))
    (h' : PacketGroupIter.next s' = .ret (some g', s'')) (more : List Packet) :
    PacketGroupIter.next { s with packets := s.packets ++ more } = .ret (some g, { s' with packets := s'.packets ++ more }) := by
  unfold PacketGroupIter.next at h ⊢
  split at h
  · cases h
  · rename_i hd
    simp only [hd, Bool.false_eq_true, if_false]
    cases hl : PacketGroupIter.loop (s.cached.toList ++ s.packets) none with
    | inl y =>
      obtain ⟨o, s1⟩ := y
      rw [hl] at h
      have := PacketGroupIter.loop_append more _ _ _ _ hl
      rw [List.append_assoc] at this
      rw [this]
      cases o with
      | none => cases h
      | some g => cases h; rfl
    | inr o =>
      rw [hl] at h
      cases o with
      | none => cases h
      | some g => cases h; cases h'

/-- `collect_groups`: all but the last group (which may go on) are final. -/
theorem C68_collect_groups (ps more : List Packet) (gs : List (Except Error PacketGroup)) (g : Except Error PacketGroup) (s : PacketGroupIter)
    (h : Takes PacketGroupIter.next (PacketGroupIter.new ps) (gs ++ [g]) s) :
    ∃ s', Takes PacketGroupIter.next (PacketGroupIter.new (ps ++ more)) gs s' := by
  have key : ∀ (gs : List (Except Error PacketGroup)) (s0 : PacketGroupIter), Takes PacketGroupIter.next s0 (gs ++ [g]) s →
      ∃ s', Takes PacketGroupIter.next { s0 with packets := s0.packets ++ more } gs s' := by
    intro gs
    induction gs with
    | nil => intro s0 _; exact ⟨_, .nil⟩
    | cons a gs ih =>
      intro s0 h
      cases h with
      | @cons _ s1 _ _ _ h1 h2 =>
        obtain ⟨s', hs⟩ := ih _ h2
        have : ∃ g' s'', PacketGroupIter.next s1 = .ret (some g', s'') := by
          cases gs with
          | nil => cases h2 with | cons h _ => exact ⟨_, _, h⟩
          | cons b gs => cases h2 with | cons h _ => exact ⟨_, _, h⟩
        obtain ⟨g', s'', h3⟩ := this
        exact ⟨s', .cons (groups_ext h1 h3 more) hs⟩
  exact key gs _ h

/-- Three bytes of a second packet have arrived after a first one of seven: the first is yielded. -/
example : ∃ p s, Takes PacketDecoder.next (PacketDecoder.new ⟨[.data [0, 5, 0xc0, 7], .data [0, 0, 0xab, 0x08, 0x01, 0xc0]], .eof⟩) [.ok p] s ∧
    p.data = [0, 5, 0xc0, 7, 0, 0, 0xab] :=
  ⟨_, _, .cons rfl .nil, rfl⟩

/-- Two groups, of which the first is final (the second, of apid 9, may go on). -/
example : let mk (a : U16) (fl : U8) (n : U16) : Packet := ⟨⟨0, 0, true, a, fl, n, 0⟩, [0, 0, 0, 0, 0, 0, 0], 0⟩
    ∃ s, Takes PacketGroupIter.next (PacketGroupIter.new [mk 5 1 2, mk 5 0 3, mk 5 2 4, mk 9 1 0]) ([.ok ⟨5, [mk 5 1 2, mk 5 0 3, mk 5 2 4]⟩] ++ [.ok ⟨9, [mk 9 1 0]⟩]) s :=
  ⟨_, .cons rfl (.cons rfl .nil)⟩

/-! ### Blocks -/

theorem occurs_append {m s : List Bool} {i : Nat} (hm : m ≠ []) (t : List Bool) (h : Occurs m s i) : Occurs m (s ++ t) i := by
  unfold Occurs at *
  have hl := h.length_le
  have : 0 < m.length := List.length_pos_iff.2 hm
  rw [List.length_drop] at hl
  rw [List.drop_append_of_le_length (by omega)]
  exact h.trans (List.prefix_append _ _)

theorem occurs_of_append {m s : List Bool} {i : Nat} (t : List Bool) (hi : i + m.length ≤ s.length) (h : Occurs m (s ++ t) i) : Occurs m s i := by
  unfold Occurs at *
  rw [List.drop_append_of_le_length (by omega)] at h
  refine List.prefix_of_prefix_length_le h (List.prefix_append _ _) ?_
  rw [List.length_drop]; omega

theorem markers_append {m s : List Bool} {skip start : Nat} {ps qs : List Nat} (hm : m ≠ []) (t : List Bool) (h : Markers m s skip start ps)
    (k : Markers m (s ++ t) skip start qs) : ps <+: qs := by
  induction h generalizing qs with
  | none => simp
  | @cons start i ps h1 _ ih =>
    obtain ⟨a1, a2, a3⟩ := h1
    have hl : i + m.length ≤ s.length := by
      have := a2.length_le
      have : 0 < m.length := List.length_pos_iff.2 hm
      rw [List.length_drop] at *
      omega
    cases k with
    | none hn => exact absurd (occurs_append hm t a2) (hn i a1)
    | @cons _ j qs k1 k2 =>
      obtain ⟨b1, b2, b3⟩ := k1
      have hij : j = i := by
        rcases Nat.lt_trichotomy i j with hlt | he | hlt
        · exact absurd (occurs_append hm t a2) (b3 i a1 hlt)
        · exact he.symm
        · exact absurd (occurs_of_append t (by omega) b2) (a3 j b1 hlt)
      subst hij
      exact (List.prefix_cons_inj _).2 (ih k2)

/-- `synchronize`: the block at the `k`-th marker, if its last bit has arrived, does not depend on what comes later. -/
theorem C68_synchronize (r r' : Reader) (S T asm : List U8) (len : Nat) (hr : Smooth r S) (hr' : Smooth r' (S ++ T)) (hasm : asm ≠ [])
    (items items' : List (Except Error Block)) (e e' : Option Sync.Iter) (h : Collects Sync.next (Sync.iter r asm len) items e)
    (h' : Collects Sync.next (Sync.iter r' asm len) items' e') (ps : List Nat) (hps : Markers (bits asm) (bits S) (8 * len) 0 ps)
    (k p : Nat) (hk : ps[k]? = some p) (hfull : p + 8 * asm.length + 8 * len ≤ 8 * S.length) :
    ∃ blk, items[k]? = some (.ok blk) ∧ items'[k]? = some (.ok blk) := by
  obtain ⟨it2, s2, qs, c1, c2, _⟩ := C26_first_markers r' (S ++ T) asm len hr' hasm
  have hpre : ps <+: qs := markers_append (Sync.bits_ne_nil hasm) (bits T) hps (by rw [← bits_append]; exact c2)
  have hget : ∀ (j q : Nat), ps[j]? = some q → qs[j]? = some q := by
    intro j q hj
    obtain ⟨w, rfl⟩ := hpre
    rw [List.getElem?_append_left (List.getElem?_eq_some_iff.1 hj).1, hj]
  obtain ⟨x, a1, a2, a3, a4, a5, a6, a7⟩ := C27_block_bits r S asm len hr hasm ps hps items e h k p hk hfull
  obtain ⟨y, b1, b2, b3, b4, b5, b6, b7⟩ := C27_block_bits r' (S ++ T) asm len hr' hasm qs c2 items' e' h' k p (hget k p hk)
    (by rw [List.length_append]; omega)
  have hd : x.data = y.data := by
    apply bits_inj
    rw [a3, b3, bits_append, List.drop_append_of_le_length (by rw [bits_length]; omega), List.take_append_of_le_length]
    rw [List.length_drop, bits_length]; omega
  have hb : x.loc.bit = y.loc.bit := BitVec.eq_of_toNat_eq (by rw [a5, b5])
  have hl : x.last = y.last := by
    cases k with
    | zero => rw [a6 rfl, b6 rfl]
    | succ j =>
      have hj : j < ps.length := by have := (List.getElem?_eq_some_iff.1 hk).1; omega
      have hpj := List.getElem?_eq_getElem hj
      rw [a7 j _ rfl hpj, b7 j _ rfl (hget _ _ hpj), a4, b4]
  refine ⟨x, a1, ?_⟩
  rw [b1]
  obtain ⟨xl, ⟨xo, xb⟩, xd⟩ := x
  obtain ⟨yl, ⟨yo, yb⟩, yd⟩ := y
  simp only at hd hb hl a4 b4
  rw [hd, hb, hl, a4, b4]

theorem markers_room {m s : List Bool} {skip start : Nat} {ps : List Nat} (hm : m ≠ []) (h : Markers m s skip start ps) :
    (∀ p ∈ ps, start ≤ p ∧ p + m.length ≤ s.length) ∧ ∀ (k p q : Nat), ps[k]? = some p → ps[k + 1]? = some q → p + m.length + skip ≤ q := by
  induction h with
  | none => exact ⟨by simp, by simp⟩
  | @cons start i ps h1 _ ih =>
    obtain ⟨a1, a2, a3⟩ := h1
    obtain ⟨i1, i2⟩ := ih
    have hl : i + m.length ≤ s.length := by
      have := a2.length_le
      have : 0 < m.length := List.length_pos_iff.2 hm
      rw [List.length_drop] at *
      omega
    constructor
    · intro p hp
      rcases List.mem_cons.1 hp with rfl | hp
      · exact ⟨a1, hl⟩
      · have := i1 p hp; omega
    · intro k p q hp hq
      cases k with
      | zero =>
        simp only [List.getElem?_cons_zero, Option.some.injEq] at hp
        subst hp
        simp only [Nat.zero_add, List.getElem?_cons_succ] at hq
        exact (i1 q (List.mem_of_getElem? hq)).1
      | succ k => exact i2 k p q (by simpa using hp) (by simpa using hq)

/-- So all blocks but the last are final. -/
theorem C68_synchronize_prefix (r r' : Reader) (S T asm : List U8) (len : Nat) (hr : Smooth r S) (hr' : Smooth r' (S ++ T)) (hasm : asm ≠ [])
    (items items' : List (Except Error Block)) (e e' : Option Sync.Iter) (h : Collects Sync.next (Sync.iter r asm len) items e)
    (h' : Collects Sync.next (Sync.iter r' asm len) items' e') : items.dropLast <+: items' := by
  obtain ⟨it, s1, ps, c1, c2, c3, _⟩ := C26_first_markers r S asm len hr hasm
  obtain ⟨rfl, _⟩ := h.unique c1
  have hroom := markers_room (Sync.bits_ne_nil hasm) c2
  rw [List.prefix_iff_getElem?]
  intro k hk
  rw [List.length_dropLast] at hk
  have hk1 : k + 1 < ps.length := by omega
  obtain ⟨blk, b1, b2⟩ := C68_synchronize r r' S T asm len hr hr' hasm items items' e e' h h' ps c2 k _ (List.getElem?_eq_getElem (by omega : k < ps.length)) (by
    have h1 := hroom.2 k _ _ (List.getElem?_eq_getElem (by omega)) (List.getElem?_eq_getElem hk1)
    have h2 := (hroom.1 _ (List.getElem_mem hk1)).2
    rw [bits_length] at h1 h2
    rw [bits_length] at h2
    omega)
  rw [b2, List.getElem_dropLast]
  rw [List.getElem?_eq_getElem (by omega)] at b1
  exact b1.symm

/-! ## C69  The Reed-Solomon stage on a live stream -/

open RsStage

/-- While the input has nothing new (the only moves left are the submitter's, waiting for the input, and the consumer giving up), every frame taken from the
input has been delivered: none is held back. -/
theorem C69_delivers (p : Params) (hw : 1 ≤ p.workers) (job : Frame → Outcome Frame) (input : List Frame) (s : RsStage.State)
    (h : Reach p job input s) (hno : ∀ f ∈ input, job f ≠ .panic) (hc : s.cons ≠ .gone)
    (hstall : ∀ t, Step p job input s t → (s.sub = .pull ∧ t.sub ≠ .pull) ∨ t.cons = .gone) :
    s.got.map Outcome.ret = (input.take s.next).map job := by
  obtain ⟨c, I⟩ := inv_reach p job input s h
  have ha : s.aborted = none := by
    cases ha : s.aborted with
    | none => rfl
    | some a =>
      obtain ⟨i, f, _, hf, hp⟩ := C42_abort p job input s a h ha
      exact absurd hp (hno f (List.mem_of_getElem? hf))
  have hm : ∀ t, Step p job input s t → (s.sub = .pull → t.sub = .pull) → t.cons = s.cons → False := by
    intro t st h1 h2
    rcases hstall t st with ⟨h3, h4⟩ | h3
    · exact h4 (h1 h3)
    · exact hc (h2 ▸ h3)
  have hr : s.running = [] := by
    cases hr : s.running with
    | nil => rfl
    | cons i r =>
      exfalso
      have hi : i ∈ s.running := by rw [hr]; simp
      have hb := (I.poolLe i (by simp [hi])).2.1
      have hlt : i < input.length := by have := I.bound; omega
      have hf : input[i]? = some input[i] := List.getElem?_eq_getElem hlt
      cases hj : job input[i] with
      | panic => exact hm _ (.jobPanics s i _ ha hi hf hj) (fun h => h) rfl
      | ret g =>
        by_cases hx : s.rxAlive i
        · exact hm _ (.finish s i _ g ha hi hf hj hx) (fun h => h) rfl
        · exact hm _ (.finishNoReceiver s i _ g ha hi hf hj hx) (fun h => h) rfl
  have hq : s.queued = [] := by
    cases hq : s.queued with
    | nil => rfl
    | cons i r =>
      exfalso
      exact hm _ (.start s i ha (by rw [hq]; simp) (by rw [hr]; simp; omega)) (fun h => h) rfl
  have hout : s.outCh = [] := by
    cases ho : s.outCh with
    | nil => rfl
    | cons g r =>
      exfalso
      cases hcc : s.cons with
      | gone => exact hc hcc
      | ended => rw [(I.ended hcc).2] at ho; cases ho
      | reading => exact hm _ (.consRecv s g r ha hcc ho) (fun h => h) rfl
  have fin : s.open = [] → s.inFlight = [] → s.got.map Outcome.ret = (input.take s.next).map job := by
    intro h1 h2
    have := I.out hc
    rw [h2, List.append_nil] at this
    have hz := congrArg List.length I.opened
    rw [h1] at hz
    simp only [List.length_nil, List.length_range'] at hz
    have := I.le
    rw [show s.next = c by omega]
    assumption
  cases hd : s.disp with
  | exited =>
    obtain ⟨h1, h2⟩ := I.dispExit hd
    exact fin (by simp [State.open, hd, h1, h2]) (by simp [State.inFlight, hd, hout])
  | sendOut g =>
    exfalso
    have hcr : s.cons = .reading := by
      cases hcc : s.cons with
      | gone => exact absurd hcc hc
      | ended => have := (I.ended hcc).1; rw [hd] at this; cases this
      | reading => rfl
    by_cases hb : p.bufferSize = 0
    · exact hm _ (.handOut s g ha hd hcr hb) (fun h => h) rfl
    · exact hm _ (.pushOut s g ha hd hc (by rw [hout]; simp; omega)) (fun h => h) rfl
  | recvFut i =>
    exfalso
    have hop := I.opened
    have hmem : i ∈ List.range' c (s.next - c) := by
      rw [← hop]; simp [State.open, hd]
    rw [List.mem_range'_1] at hmem
    obtain ⟨g, hg⟩ := I.cover i (by omega) (by omega) (by simp [hq, hr])
    exact hm _ (.recvFut s i g ha hd hg) (fun h => h) rfl
  | recvJob =>
    cases hj : s.jobsCh with
    | cons i r => exact (hm _ (.recvJob s i r ha hd hj) (fun h => h) rfl).elim
    | nil =>
      cases hs : s.sub with
      | exited => exact (hm _ (.dispEnd s ha hd hj hs) (fun h => h) rfl).elim
      | pull => exact fin (by simp [State.open, hd, hj, hs]) (by simp [State.inFlight, hd, hout])
      | sending i =>
        exfalso
        by_cases hb : p.bufferSize = 0
        · exact hm _ (.handJob s i ha hs hb hd) (fun _ => rfl) rfl
        · exact hm _ (.pushJob s i ha hs (by rw [hd]; simp) (by rw [hj]; simp; omega)) (fun _ => rfl) rfl

/-- A stalled state with a delivered frame is reachable: the stage waits in `next()` of its input, and the consumer has the frame. -/
example (f : Frame) : ∃ s, Reach ⟨1, 2⟩ Outcome.ret [f] s ∧ s.cons ≠ .gone ∧ s.got = [f] ∧ s.next = 1 ∧
    ∀ t, Step ⟨1, 2⟩ Outcome.ret [f] s t → (s.sub = .pull ∧ t.sub ≠ .pull) ∨ t.cons = .gone := by
  have r1 := Reach.step (p := ⟨1, 2⟩) (job := Outcome.ret) (input := [f]) .init (.pull _ rfl rfl (by simp [State.init]))
  have r2 := r1.step (.pushJob _ 0 rfl rfl (by simp [State.init]) (by simp [State.init]))
  have r3 := r2.step (.start _ 0 rfl (by simp [State.init]) (by simp [State.init]))
  have r4 := r3.step (.finish _ 0 f f rfl (by simp [State.init]) rfl rfl (.inr (.inl (by simp [State.init]))))
  have r5 := r4.step (.recvJob _ 0 [] rfl rfl (by simp [State.init]))
  have r6 := r5.step (.recvFut _ 0 f rfl rfl (by simp))
  have r7 := r6.step (.pushOut _ f rfl rfl (by simp [State.init]) (by simp [State.init]))
  have r8 := r7.step (.consRecv _ f [] rfl rfl (by simp [State.init]))
  refine ⟨_, r8, by simp [State.init], by simp [State.init], by simp [State.init], ?_⟩
  intro t st
  cases st <;> simp_all [State.init]

/-- The stage reads ahead of the consumer by at most `3 * buffer_size + 2` frames, and at most `2 * buffer_size + 2` jobs are waiting or running. -/
theorem C69_readahead (p : Params) (job : Frame → Outcome Frame) (input : List Frame) (s : RsStage.State) (h : Reach p job input s) (hc : s.cons ≠ .gone) :
    s.next ≤ s.got.length + 3 * p.bufferSize + 2 ∧ s.queued.length + s.running.length ≤ 2 * p.bufferSize + 2 := by
  obtain ⟨c, I⟩ := inv_reach p job input s h
  have h1 := congrArg List.length I.opened
  have h2 := congrArg List.length (I.out hc)
  simp only [List.length_map, List.length_append, List.length_take, List.length_range', State.open, State.inFlight] at h1 h2
  have hle := I.le
  have hb := I.bound
  have j1 := I.jobsCap
  have j2 := I.outCap
  have hpool : (s.queued ++ s.running).length ≤ s.next - c := by
    have : (s.queued ++ s.running) ⊆ List.range' c (s.next - c) := by
      intro i hi
      have := I.poolLe i hi
      rw [List.mem_range'_1]; omega
    have := List.Nodup.length_le_of_subset I.nodup this
    rwa [List.length_range'] at this
  rw [List.length_append] at hpool
  cases hd : s.disp <;> cases hs : s.sub <;> simp only [hd, hs, List.length_nil, List.length_cons] at h1 h2 <;> constructor <;> omega

/-- Never more jobs than worker threads run at a time. -/
theorem C69_workers (p : Params) (job : Frame → Outcome Frame) (input : List Frame) (s : RsStage.State) (h : Reach p job input s) :
    s.running.length ≤ p.workers := by
  induction h with
  | init => simp [State.init]
  | step _ st ih =>
    cases st with
    | start i _ _ h => simp only [List.length_append, List.length_singleton]; omega
    | finish i f g _ _ _ _ _ => exact Nat.le_trans (List.length_erase_le) ih
    | _ => exact ih

end Ccsds
