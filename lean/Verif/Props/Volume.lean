import Verif.Props.PacketSemantics
import Verif.Props.Framing
import Verif.Props.Sizes
import Verif.Props.Sync
import Verif.Props.Filter
import Verif.Props.MergeSteps
/-!
# C134: no output is larger than its input

How much synchronization, the pipeline, packet extraction and the `framing` command can put out, against the number of bytes they were given.
-/
namespace Ccsds
open Spec

/-! ## Blocks -/

/-- The markers an ideal synchronizer visits leave room for the marker and the block between them. -/
theorem Spec.Markers.room {m s : List Bool} {skip start : Nat} {ps : List Nat} (h : Markers m s skip start ps) (hm : m ≠ [])
    (hs : start ≤ s.length + skip) : start + ps.length * (m.length + skip) ≤ s.length + skip := by
  induction h with
  | none _ => simpa using hs
  | @cons start i ps hf h ih =>
    obtain ⟨h1, h2, _⟩ := hf
    have hl : m.length ≤ s.length - i := by
      have := h2.length_le
      rwa [List.length_drop] at this
    have h0 : 0 < m.length := by cases m with | nil => exact absurd rfl hm | cons a l => simp
    have := ih (by omega)
    rw [List.length_cons, Nat.add_mul, Nat.one_mul]
    omega

/-- C134, blocks: `n` blocks of `len` bytes, each with its marker before it, come from a stream at least that long; only the last block may be cut short. -/
theorem C134_blocks (r : Reader) (S asm : List U8) (len : Nat) (hr : Smooth r S) (hasm : asm ≠ []) (items : List (Except Error Block))
    (e : Option Sync.Iter) (h : Collects Sync.next (Sync.iter r asm len) items e) : items.length * (asm.length + len) ≤ S.length + len := by
  obtain ⟨items', s', ps, h1, h2, h3, _⟩ := C26_first_markers r S asm len hr hasm
  obtain ⟨rfl, _⟩ := h.unique h1
  have hne : bits asm ≠ [] := by
    cases asm with
    | nil => exact absurd rfl hasm
    | cons a l => intro hc; have := congrArg List.length hc; simp [bits_length] at this
  have := Markers.room h2 hne (Nat.zero_le _)
  rw [bits_length, bits_length, Nat.zero_add, ← h3, ← Nat.mul_add, Nat.mul_left_comm, ← Nat.mul_add] at this
  omega

/-! ## Frames -/

/-- A pull takes at least one item off the synchronizer. -/
theorem Pipeline.pulls_fewer {s y : Sync.Iter} {o : Option Block} (h : Pipeline.Pulls s o y) : ∀ {items : List (Except Error Block)} {e : Option Sync.Iter},
    o.isSome → Collects Sync.next s items e → ∃ items', Collects Sync.next y items' e ∧ items'.length + 1 ≤ items.length := by
  induction h with
  | done _ => intro items e ho; cases ho
  | ok hn =>
    intro items e _ hc
    cases hc with
    | done hx => rw [hn] at hx; cases hx
    | panicked hx => rw [hn] at hx; cases hx
    | step hx hc' => rw [hn] at hx; cases hx; exact ⟨_, hc', by simp⟩
  | skip hn _ ih =>
    intro items e ho hc
    cases hc with
    | done hx => rw [hn] at hx; cases hx
    | panicked hx => rw [hn] at hx; cases hx
    | step hx hc' =>
      rw [hn] at hx; cases hx
      obtain ⟨i', h1, h2⟩ := ih ho hc'
      exact ⟨i', h1, by simp; omega⟩

/-- There are no more frames than items of the synchronizer. -/
theorem Pipeline.yields_fewer {b : Build} {d : Bool} {s : Pipeline.State} {fs : List Frame} {x : Option Pipeline.State} (h : Pipeline.Yields b d s fs x) :
    ∀ {items : List (Except Error Block)} {e : Option Sync.Iter}, Collects Sync.next s.sync items e → fs.length ≤ items.length := by
  induction h with
  | done => intro _ _ _; simp
  | stop => intro _ _ _; simp
  | panicked => intro _ _ _; simp
  | frame hp _ _ ih =>
    intro items e hc
    obtain ⟨i', h1, h2⟩ := Pipeline.pulls_fewer hp rfl hc
    have := ih h1
    simp; omega

/-- C134, frames: the frames of the pipeline, each with its 4 byte marker before it, fit in the stream; only the last one may be cut short. -/
theorem C134_frames (b : Build) (c : Pipeline.Config) (r : Reader) (S : List U8) (hr : Smooth r S) (frames : List Frame) (ended : Bool)
    (h : Pipeline.Outputs b c r frames ended) : frames.length * (4 + c.blockLength) ≤ S.length + c.blockLength := by
  obtain ⟨e, hy, _⟩ := h
  obtain ⟨items, s', _, h1, _⟩ := C26_first_markers r S Sync.ASM c.blockLength hr (by decide)
  have hle := Pipeline.yields_fewer hy h1
  have hb := C134_blocks r S Sync.ASM c.blockLength hr (by decide) items _ h1
  exact Nat.le_trans (Nat.mul_le_mul_right _ hle) hb

/-- The same with Reed-Solomon, at every moment of every schedule, for the frames delivered so far. -/
theorem C134_rs (b : Build) (k : Codec) (c : Pipeline.Config) (r : Reader) (S : List U8) (hr : Smooth r S) (st : RsStage.State)
    (h : Pipeline.Runs b k c r st) : st.got.length * (4 + c.blockLength) ≤ S.length + c.blockLength := by
  obtain ⟨o, p, frames, ended, _, ho, hreach⟩ := h
  have hle := (C42_prefix p (RS.job k o) frames st hreach).length_le
  rw [List.length_map, List.length_map] at hle
  exact Nat.le_trans (Nat.mul_le_mul_right _ hle) (C134_frames b c r S hr frames ended ho)

/-! ## The `framing` command -/

theorem Framing.config_length (a : Framing.Args) (workers : Nat) : a.length ≤ (Framing.config a workers).blockLength := by
  unfold Framing.config
  cases a.reedSolomon <;> cases a.pn <;> simp [Pipeline.Config.new, Pipeline.Config.withRs, Pipeline.Config.withoutDerandomization]

/-- The records written are no more than the frames. -/
theorem Framing.written_le (a : Framing.Args) (fs : List Frame) (s : Framing.Summary) (w : List (List U8)) (h : Framing.Finishes a fs s w) :
    w.flatten.length ≤ fs.length * a.length := by
  have hf := C57_fixed a fs s w h
  have hw := ((C57_summary a fs).1 s w h).2
  have hn : w.length ≤ fs.length := by
    rw [hw]
    split
    · rw [List.length_map]
      exact Nat.le_trans (List.length_filter_le _ _) (List.length_filter_le _ _)
    · simp
  have hs : ∀ l : List (List U8), (∀ x ∈ l, x.length = a.length) → l.flatten.length = l.length * a.length := by
    intro l
    induction l with
    | nil => intro _; simp
    | cons x l ih =>
      intro hx
      rw [List.flatten_cons, List.length_append, ih (fun y hy => hx y (by simp [hy])), hx x (by simp), List.length_cons, Nat.add_mul]
      omega
  rw [hs w hf]
  exact Nat.mul_le_mul_right _ hn

/-- C134, the `framing` command: what it writes is no longer than its input and the one record that the cut last block gives. -/
theorem C134_framing (b : Build) (k : Codec) (a : Framing.Args) (workers : Nat) (r : Reader) (S : List U8) (hr : Smooth r S)
    (s : Framing.Summary) (w : List (List U8)) (h : Framing.Runs b k a workers r s w) : w.flatten.length ≤ S.length + a.length := by
  have key : ∀ n : Nat, n * (4 + (Framing.config a workers).blockLength) ≤ S.length + (Framing.config a workers).blockLength →
      n * a.length ≤ S.length + a.length := by
    intro n hn
    have hl := Framing.config_length a workers
    cases n with
    | zero => omega
    | succ n =>
      rw [Nat.add_mul, Nat.one_mul] at hn ⊢
      have := Nat.mul_le_mul_left n (show a.length ≤ 4 + (Framing.config a workers).blockLength by omega)
      omega
  cases h with
  | plain _ ho hf => exact Nat.le_trans (Framing.written_le a _ s w hf) (key _ (C134_frames b _ r S hr _ _ ho))
  | rs _ ho _ hf => exact Nat.le_trans (Framing.written_le a _ s w hf) (key _ (C134_rs b k _ r S hr _ ho))

/-! ## Packets -/

/-- The bytes of some packets. -/
def packetBytes (ps : List Packet) : Nat := (ps.map (fun p => p.data.length)).sum
/-- The bytes of some frames. -/
def frameBytes (fs : List Frame) : Nat := (fs.map (fun f => f.data.length)).sum

namespace FramedPackets

/-- What the iterator has left: the frames not read, the bytes kept for each virtual channel, the packets not handed out. -/
def held (s : State) : Nat := frameBytes s.frames + (s.cache.map (fun e => e.2.cache.length)).sum + packetBytes s.ready

theorem drain_bytes (t t' : Tracker) (ps : List Packet) (h : drain t = .ret (ps, t')) : t'.cache.length + packetBytes ps ≤ t.cache.length := by
  obtain ⟨qs, rest, e, _, _, hd⟩ := drain_spec t
  have hsum : rest.length + packetBytes qs = t.cache.length := by
    rw [e, List.length_append, List.length_flatten, List.map_map]
    exact Nat.add_comm _ _
  rcases hd with ⟨hb, hd⟩ | ⟨hb, hd⟩ <;> rw [h] at hd <;> cases hd
  · show 0 + packetBytes ps ≤ _; omega
  · exact Nat.le_of_eq hsum

theorem onFrame_bytes (izone trailer : Nat) (m : MPDU) (f : Frame) (t t' : Tracker) (ps : List Packet) (hm : f.mpdu izone trailer = .ret (some m))
    (h : onFrame m f t = .ret (ps, t')) : t'.cache.length + packetBytes ps ≤ t.cache.length + f.data.length := by
  unfold onFrame at h
  have h1 : (if f.integrity = some .corrected then { t with rsCorrected := true } else t).cache.length = t.cache.length := by split <;> rfl
  generalize (if f.integrity = some .corrected then { t with rsCorrected := true } else t) = t1 at h h1
  dsimp only at h
  split at h
  · cases h; simp [Tracker.reset, packetBytes]
  · have h2 : (if f.missing.toNat > 0 then t1.reset else t1).cache.length ≤ t.cache.length := by
      split
      · simp [Tracker.reset]
      · omega
    generalize (if f.missing.toNat > 0 then t1.reset else t1) = t2 at h h2
    split at h
    · cases hp : m.payload with
      | panic => rw [hp] at h; cases h
      | ret p =>
        rw [hp] at h
        have := drain_bytes _ _ _ h
        have hle := payload_le m p f izone trailer hm hp
        simp only [List.length_append] at this
        omega
    · split at h
      · cases h; simp [packetBytes]; omega
      · split at h
        · cases h; simp [packetBytes]; omega
        · cases hp : m.payload with
          | panic => rw [hp] at h; cases h
          | ret p =>
            rw [hp] at h
            simp only [] at h
            split at h
            · cases h; simp [packetBytes]; omega
            · have := drain_bytes _ _ _ h
              have hle := payload_le m p f izone trailer hm hp
              simp only [List.length_drop] at this
              omega

theorem loop_bytes (izone trailer : Nat) (frames : List Frame) : ∀ (cache : HMap U16 Tracker) (o : Option Packet) (s : State),
    loop izone trailer frames cache = .ret (o, s) →
    held s + packetBytes o.toList ≤ frameBytes frames + (cache.map (fun e => e.2.cache.length)).sum := by
  induction frames with
  | nil => intro cache o s h; simp only [loop] at h; cases h; simp [held, packetBytes]
  | cons f frames ih =>
    intro cache o s h
    rw [loop] at h
    cases hm : f.mpdu izone trailer with
    | panic => rw [hm] at h; cases h
    | ret mo =>
      cases mo with
      | none => rw [hm] at h; cases h
      | some m =>
        rw [hm] at h
        simp only [] at h
        have hins := fun v => HMap.sum_insert cache (fun t : Tracker => t.cache.length) f.header.vcid v
        have ht : ((cache.get? f.header.vcid).getD (Tracker.new f.header.vcid)).cache.length = ((cache.get? f.header.vcid).map (fun t => t.cache.length)).getD 0 := by
          cases cache.get? f.header.vcid <;> simp [Tracker.new]
        have hfb : frameBytes (f :: frames) = f.data.length + frameBytes frames := by simp [frameBytes]
        cases ho : onFrame m f ((cache.get? f.header.vcid).getD (Tracker.new f.header.vcid)) with
        | panic => rw [ho] at h; cases h
        | ret x =>
          obtain ⟨ps, t'⟩ := x
          have hb := onFrame_bytes izone trailer m f _ t' ps hm ho
          have hi := hins t'
          rw [ho] at h
          cases ps with
          | nil =>
            have := ih _ o s h
            simp only [packetBytes, List.map_nil, List.sum_nil] at hb
            omega
          | cons p ps =>
            cases h
            simp only [packetBytes, List.map_cons, List.sum_cons] at hb
            simp only [held, packetBytes, Option.toList, List.map_cons, List.map_nil, List.sum_cons, List.sum_nil]
            omega

theorem next_bytes (s s' : State) (o : Option Packet) (h : next s = .ret (o, s')) : held s' + packetBytes o.toList ≤ held s := by
  unfold next at h
  split at h
  · rename_i p ps e
    cases h
    simp only [held, e, packetBytes, Option.toList, List.map_cons, List.map_nil, List.sum_cons, List.sum_nil]
    omega
  · rename_i e
    have := loop_bytes _ _ _ _ _ _ h
    simp only [held, e, packetBytes, List.map_nil, List.sum_nil] at this ⊢
    omega

end FramedPackets

/-- C134, packets: at every moment of the iteration the packets handed out, the complete packets waiting, the bytes kept for each virtual channel and the
frames still to read together hold no more bytes than the frames given: no byte of a frame is used twice and none is invented. -/
theorem C134_packets (izone trailer : Nat) (frames : List Frame) (ps : List Packet) (s : FramedPackets.State)
    (h : Takes FramedPackets.next (FramedPackets.new frames izone trailer) ps s) :
    packetBytes ps + packetBytes s.ready + (s.cache.map (fun e => e.2.cache.length)).sum + frameBytes s.frames ≤ frameBytes frames := by
  have main : ∀ {s0 s : FramedPackets.State} {ps : List Packet}, Takes FramedPackets.next s0 ps s → FramedPackets.held s + packetBytes ps ≤ FramedPackets.held s0 := by
    intro s0 s ps h
    induction h with
    | nil => simp [packetBytes]
    | cons hn _ ih =>
      have := FramedPackets.next_bytes _ _ _ hn
      simp only [packetBytes, Option.toList, List.map_cons, List.map_nil, List.sum_cons, List.sum_nil] at this ih ⊢
      omega
  have := main h
  simp only [FramedPackets.held, FramedPackets.new, packetBytes, List.map_nil, List.sum_nil] at this ⊢
  omega

/-- The same for a whole loop over the packets, whether it ends or panics. -/
theorem C134_packets_all (izone trailer : Nat) (frames : List Frame) (ps : List Packet) (e : Option FramedPackets.State)
    (h : Collects FramedPackets.next (FramedPackets.new frames izone trailer) ps e) : packetBytes ps ≤ frameBytes frames := by
  have take : ∀ {s : FramedPackets.State} {ps : List Packet} {e : Option FramedPackets.State}, Collects FramedPackets.next s ps e → ∃ t, Takes FramedPackets.next s ps t := by
    intro s ps e h
    induction h with
    | done => exact ⟨_, .nil⟩
    | panicked => exact ⟨_, .nil⟩
    | step hn _ ih => obtain ⟨t, ht⟩ := ih; exact ⟨t, .cons hn ht⟩
  obtain ⟨t, ht⟩ := take h
  have := C134_packets izone trailer frames ps t ht
  omega

/-- C134, from recording to packets: the packets extracted from the frames of a stream hold no more bytes than the stream and one block. -/
theorem C134_recording (b : Build) (c : Pipeline.Config) (r : Reader) (S : List U8) (hr : Smooth r S) (frames : List Frame) (ended : Bool)
    (h : Pipeline.Outputs b c r frames ended) (izone trailer : Nat) (ps : List Packet) (e : Option FramedPackets.State)
    (hp : Collects FramedPackets.next (FramedPackets.new frames izone trailer) ps e) : packetBytes ps + 4 * frames.length ≤ S.length + c.blockLength := by
  have h1 := C134_packets_all izone trailer frames ps e hp
  have h2 := C134_frames b c r S hr frames ended h
  have h3 : ∀ l : List Frame, (∀ f ∈ l, f.data.length = c.blockLength) → frameBytes l = l.length * c.blockLength := by
    intro l
    induction l with
    | nil => intro _; simp [frameBytes]
    | cons x l ih =>
      intro hx
      have := ih (fun y hy => hx y (by simp [hy]))
      simp only [frameBytes, List.map_cons, List.sum_cons, List.length_cons] at this ⊢
      rw [this, hx x (by simp), Nat.add_mul]
      omega
  rw [h3 frames (C61_frames b c r frames ended h)] at h1
  rw [Nat.mul_add] at h2
  omega

/-! ## Filtering -/

theorem sublist_flatMap {α β : Type} (f : α → List β) {l k : List α} (h : List.Sublist l k) : List.Sublist (l.flatMap f) (k.flatMap f) := by
  induction h with
  | slnil => exact .refl _
  | cons a _ ih => rw [List.flatMap_cons]; exact ih.trans (List.sublist_append_right _ _)
  | cons_cons a _ ih => rw [List.flatMap_cons, List.flatMap_cons]; exact (List.Sublist.refl _).append ih

theorem wire_groups (gs : List PacketGroup) : wire (gs.flatMap PacketGroup.packets) = gs.flatMap groupBytes := by
  induction gs with
  | nil => rfl
  | cons g gs ih =>
    rw [List.flatMap_cons, List.flatMap_cons, ← ih]
    simp [wire, groupBytes]

namespace Filter

theorem timed_bytes {b : Build} {g : PacketGroup} {i : Item} (h : timed b g = .ret (some i)) : i.data = groupBytes g := by
  unfold timed at h
  split at h
  · cases h
  · split at h
    · cases h
    · cases hd : decoder.decode b _ with
      | panic => rw [hd] at h; cases h
      | ret x =>
        rw [hd] at h
        cases x with
        | error e => cases h
        | ok t => cases h; rfl

theorem timedAll_sub (b : Build) (gs : List PacketGroup) : List.Sublist ((timedAll b gs).1.flatMap Item.data) (gs.flatMap groupBytes) := by
  induction gs with
  | nil => exact .refl _
  | cons g gs ih =>
    rw [timedAll, List.flatMap_cons]
    cases ht : timed b g with
    | panic => exact List.nil_sublist _
    | ret o =>
      cases o with
      | none => exact ih.trans (List.sublist_append_right _ _)
      | some i =>
        show List.Sublist ((i :: (timedAll b gs).1).flatMap Item.data) _
        rw [List.flatMap_cons, timed_bytes ht]
        exact (List.Sublist.refl _).append ih

theorem beforePanic_sub (gs : List PacketGroup) : List.Sublist ((beforePanic gs).flatMap groupBytes) (gs.flatMap groupBytes) := by
  have hs : List.Sublist (beforePanic gs) gs := by
    unfold beforePanic
    split
    · split
      · exact .refl _
      · exact gs.dropLast_sublist
    · exact List.nil_sublist _
  exact sublist_flatMap _ hs

end Filter

/-- C134, the `filter` command: what it writes, whether it ends or panics, is what is left of its input after leaving bytes out: the same bytes in the same
order, none twice. -/
theorem C134_filter (b : Build) (τ : Epoch → Int) (bs : List U8) (r : Reader) (hd : r.Delivers bs) (incl excl : List U16) (before after : Option Epoch)
    (res : Filter.FResult) (h : Filter.Runs b τ r incl excl before after res) (w : List (List U8)) (hw : res = .ok w ∨ res = .panic w) :
    List.Sublist w.flatten bs := by
  cases h with
  | noFilters => rcases hw with hw | hw <;> cases hw
  | @run items ends hne hi =>
    have hw' : w = Filter.writes τ incl excl before after items := by
      cases ends <;> rcases hw with hw | hw <;> simp at hw <;> exact hw.symm
    subst hw'
    have h1 : List.Sublist (Filter.writes τ incl excl before after items).flatten (items.flatMap Filter.Item.data) := by
      unfold Filter.writes
      rw [← List.flatMap_def]
      exact sublist_flatMap _ List.filter_sublist
    refine h1.trans ?_
    have hwire : ∀ ps : List Packet, ∀ e, Collects PacketDecoder.next (PacketDecoder.new r) (ps.map .ok) e → List.Sublist (wire ps) bs := by
      intro ps e hc
      obtain ⟨qs, rest, e1, e2, _⟩ := Merger.collects_items (f := ⟨bs, r⟩) hd hc
      rw [map_ok_inj e1]
      rw [show bs = wire qs ++ rest from e2]
      exact List.sublist_append_left _ _
    by_cases hb : (before.isSome || after.isSome) = true
    · rw [if_pos hb] at hi
      obtain ⟨pitems, e, hc, gitems, s, hg, hm⟩ := hi
      obtain ⟨ps, rfl, _⟩ := delivers_packets hd hc
      rw [Merger.oks_map_ok] at hg
      obtain ⟨gs, rfl, hgs, _⟩ := Merger.collects_groups hg
      rw [Merger.oks_map_ok] at hm
      have hall := hwire ps e hc
      rw [← hgs, wire_groups] at hall
      refine List.Sublist.trans ?_ hall
      cases e with
      | some x =>
        have : items = (Filter.timedAll b gs).1 := by rw [hm]
        rw [this]
        exact Filter.timedAll_sub b gs
      | none =>
        rw [← hm.2]
        exact (Filter.timedAll_sub b _).trans (Filter.beforePanic_sub gs)
    · rw [if_neg hb] at hi
      obtain ⟨ps, e, hc, rfl, _⟩ := hi
      obtain ⟨qs, rest, e', hc', h2, _⟩ := C04_cut bs r hd
      have := mapWhile_collects _ _ _ _ hc'
      obtain ⟨rfl, _⟩ := hc.unique this
      refine List.Sublist.trans ?_ (hwire ps e' hc')
      unfold wire
      rw [List.flatMap_map]
      exact .refl _

/-! ## Merging -/

theorem sum_subset {α : Type} [DecidableEq α] (f : α → Nat) (l : List α) : ∀ g : List α, l.Nodup → (∀ x ∈ l, x ∈ g) → (l.map f).sum ≤ (g.map f).sum := by
  induction l with
  | nil => intro g _ _; simp
  | cons x l ih =>
    intro g hn hs
    obtain ⟨hx, hn⟩ := List.nodup_cons.1 hn
    have hg := List.perm_cons_erase (hs x (by simp))
    have := ih (g.erase x) hn (fun y hy => by
      refine (List.mem_erase_of_ne ?_).2 (hs y (by simp [hy]))
      rintro rfl
      exact hx hy)
    rw [(hg.map f).sum_nat]
    simp only [List.map_cons, List.sum_cons]
    omega

section Merging
variable {Path : Type} [DecidableEq Path]

omit [DecidableEq Path] in
/-- The groups taken from one file are no larger than the file. -/
theorem one_file {b : Build} {τ : Epoch → Int} {m : Merger Path} {files : Path → Option MFile} (hfiles : Readable files) (p : Path) (es : List (Entry Path))
    (hi : ∀ e ∈ es, Inputs b τ m files e ∧ e.path = p) (hn : (es.map (Entry.key τ)).Nodup) :
    (es.map fun e => e.bytes.length).sum ≤ ((files p).map fun f => f.content.length).getD 0 := by
  cases es with
  | nil => simp
  | cons e0 es0 =>
    generalize hes : e0 :: es0 = es at hi hn
    obtain ⟨⟨_, f, gs, hf, hg, _, _⟩, hp⟩ := hi e0 (by rw [← hes]; simp)
    rw [hp] at hf
    have hmem : ∀ e ∈ es, e.group ∈ gs := by
      intro e he
      obtain ⟨⟨_, f', gs', hf', hg', hm', _⟩, hp'⟩ := hi e he
      rw [hp', hf] at hf'
      cases hf'
      rwa [Merger.fileGroups_unique hg hg']
    have hng : (es.map Entry.group).Nodup := by
      refine nodup_transfer _ _ _ hn ?_
      intro x hx y hy hxy
      obtain ⟨⟨_, _, _, _, _, _, hex⟩, _⟩ := hi x hx
      obtain ⟨⟨_, _, _, _, _, _, hey⟩, _⟩ := hi y hy
      rw [hxy] at hex
      obtain ⟨a, ra, ha, _, hda, _⟩ := hex
      obtain ⟨c, rc, hc, _, hdc, _⟩ := hey
      rw [ha] at hc
      cases hc
      rw [hda] at hdc
      have ht : x.time = y.time := by
        simp only [Outcome.ret.injEq, Except.ok.injEq] at hdc
        exact hdc
      simp only [Entry.key, hxy, ht]
    have hsum := sum_subset (fun g => (groupBytes g).length) (es.map Entry.group) gs hng (by
      intro g hg
      obtain ⟨e, he, rfl⟩ := List.mem_map.1 hg
      exact hmem e he)
    rw [List.map_map] at hsum
    obtain ⟨ps, s, s', c1, c2⟩ := hg
    obtain ⟨qs, rest, q1, q2, _⟩ := Merger.collects_items (hfiles p f hf) c1
    have hq := map_ok_inj q1
    obtain ⟨hs, h1, h2, _⟩ := Merger.collects_groups c2
    have hh := map_ok_inj h1
    subst hq hh
    have htot : (gs.map fun g => (groupBytes g).length).sum ≤ f.content.length := by
      rw [q2, ← h2, wire_groups, List.length_append, List.length_flatMap]
      exact Nat.le_add_right _ _
    rw [hf]
    exact Nat.le_trans hsum htot

/-- C134, `merge`: what it writes is no longer than the input files together, each counted once however often it is given. -/
theorem C134_merge (b : Build) (τ : Epoch → Int) (m : Merger Path) (files : Path → Option MFile) (hfiles : Readable files) (out : List (List U8))
    (h : Merger.Merges b τ m files (.ok out)) (inputs : List Path) (hall : ∀ p ∈ m.paths, p ∈ inputs) :
    out.flatten.length ≤ (inputs.map fun p => ((files p).map fun f => f.content.length).getD 0).sum := by
  obtain ⟨es, hm⟩ := C21_merge b τ m files hfiles out h
  have main : ∀ (inputs : List Path) (es : List (Entry Path)), (∀ e ∈ es, Inputs b τ m files e ∧ e.path ∈ inputs) → (es.map (Entry.key τ)).Nodup →
      (es.map fun e => e.bytes.length).sum ≤ (inputs.map fun p => ((files p).map fun f => f.content.length).getD 0).sum := by
    intro inputs
    induction inputs with
    | nil =>
      intro es hi _
      cases es with
      | nil => simp
      | cons e es => exact absurd (hi e (by simp)).2 (by simp)
    | cons p inputs ih =>
      intro es hi hn
      have h1 := one_file hfiles p (es.filter fun e => decide (e.path = p)) (by
        intro e he
        simp only [List.mem_filter, decide_eq_true_eq] at he
        exact ⟨(hi e he.1).1, he.2⟩) (hn.sublist (List.filter_sublist.map _))
      have h2 := ih (es.filter fun e => !decide (e.path = p)) (by
        intro e he
        simp only [List.mem_filter, Bool.not_eq_true', decide_eq_false_iff_not] at he
        exact ⟨(hi e he.1).1, (List.mem_cons.1 (hi e he.1).2).resolve_left he.2⟩) (hn.sublist (List.filter_sublist.map _))
      have hs : ∀ l : List (Entry Path), (l.map fun e => e.bytes.length).sum =
          ((l.filter fun e => decide (e.path = p)).map fun e => e.bytes.length).sum + ((l.filter fun e => !decide (e.path = p)).map fun e => e.bytes.length).sum := by
        intro l
        induction l with
        | nil => rfl
        | cons e l ihl =>
          by_cases hp : e.path = p
          · simp [hp] at ihl ⊢; omega
          · simp [hp] at ihl ⊢; omega
      rw [hs es, List.map_cons, List.sum_cons]
      omega
  have := main inputs es (fun e he => ⟨hm.inputs e he, hall _ (hm.inputs e he).1⟩) hm.distinct
  rw [hm.bytes, List.length_flatten, List.map_map]
  exact this

end Merging

end Ccsds
