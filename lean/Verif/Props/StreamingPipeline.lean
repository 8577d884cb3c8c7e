import Verif.Props.Streaming
import Verif.Proofs.SyncStreaming
import Verif.Proofs.Terminate
import Verif.Props.Pipeline
import Verif.Props.EndToEnd
/-!
# C68 for the whole pipeline: what a loop over the pipeline has seen of a stream so far is final, except for the last frame

`S` is what has arrived so far, `T` what comes later.
-/
namespace Ccsds
open Spec
open Pipeline

/-! ## Whatever the reads that come later do

`more` and `tail` are the results of all later reads: data, failures, ends of file, in any order. -/

/-- All items but the last are blocks. -/
theorem blocks_ok (r : Reader) (S asm : List U8) (len : Nat) (hr : Smooth r S) (hasm : asm ≠ []) (items : List (Except Error Block)) (e : Option Sync.Iter)
    (h : Collects Sync.next (Sync.iter r asm len) items e) : ∀ x ∈ items.dropLast, ∃ d, x = .ok d := by
  intro x hx
  obtain ⟨it, s1, ps, c1, c2, c3, _⟩ := C26_first_markers _ S asm len hr hasm
  obtain ⟨rfl, _⟩ := h.unique c1
  have hroom := markers_room (Sync.bits_ne_nil hasm) c2
  obtain ⟨k, hk, rfl⟩ := List.getElem_of_mem hx
  rw [List.length_dropLast] at hk
  have hk1 : k + 1 < ps.length := by omega
  obtain ⟨blk, b1, _⟩ := C27_block_bits _ S asm len hr hasm ps c2 items e h k _ (List.getElem?_eq_getElem (by omega : k < ps.length)) (by
    have h1 := hroom.2 k _ _ (List.getElem?_eq_getElem (by omega)) (List.getElem?_eq_getElem hk1)
    have h2 := (hroom.1 _ (List.getElem_mem hk1)).2
    rw [bits_length] at h1 h2
    rw [bits_length] at h2
    omega)
  refine ⟨blk, ?_⟩
  rw [List.getElem_dropLast]
  rw [List.getElem?_eq_getElem (by omega)] at b1
  exact Option.some.inj b1

/-- `synchronize`: all blocks but the last found in what has arrived so far are yielded whatever the reads that come later do. -/
theorem C68_synchronize_any (evs more : List Ev) (tail : Tail) (S asm : List U8) (len : Nat) (hr : Smooth ⟨evs, .eof⟩ S) (hasm : asm ≠ [])
    (items : List (Except Error Block)) (e : Option Sync.Iter) (h : Collects Sync.next (Sync.iter ⟨evs, .eof⟩ asm len) items e) :
    ∃ t, Takes Sync.next (Sync.iter ⟨evs ++ more, tail⟩ asm len) items.dropLast t := by
  have hok := blocks_ok _ S asm len hr hasm items e h
  have key : ∀ (s : Sync.Iter) (items : List (Except Error Block)), Sync.Safe asm s → s.scanner.bytes.reader.Plain → Collects Sync.next s items e →
      (∀ x ∈ items.dropLast, ∃ d, x = .ok d) → ∃ t, Takes Sync.next (s.andThen more tail) items.dropLast t := by
    clear h hok
    intro s items
    induction items generalizing s with
    | nil => intro _ _ _ _; exact ⟨_, .nil⟩
    | cons a items ih =>
      intro hs hp h hok
      cases items with
      | nil => exact ⟨_, .nil⟩
      | cons a' items =>
        obtain ⟨d, rfl⟩ := hok a (by simp)
        cases h with
        | @step _ s' _ _ _ h1 h2 =>
          obtain ⟨n1, n2, n3⟩ := Sync.next_andThen hasm hs hp h1 more tail
          rcases n3 with n3 | ⟨s'', n3⟩
          · obtain ⟨t, ht⟩ := ih s' n1 n2 h2 (fun x hx => hok x (by simpa using Or.inr hx))
            exact ⟨t, .cons n3 ht⟩
          · cases h2 with
            | step k _ => rw [n3] at k; cases k
  exact key _ items (Sync.iter_safe _ asm len) ⟨hr.1, rfl⟩ h hok

/-- Every frame comes from one block, in order. -/
theorem frames_take (b : Build) : ∀ (X Y : List Block) (m : HMap U16 U32) (frames : List Frame) (t : FrameDecoder.State),
    Takes (FrameDecoder.next b) ⟨m, X ++ Y⟩ frames t → ∃ t', Takes (FrameDecoder.next b) ⟨m, X⟩ (frames.take X.length) t' := by
  intro X
  induction X with
  | nil => intro Y m frames t _; exact ⟨_, by simpa using Takes.nil⟩
  | cons x X ih =>
    intro Y m frames t h
    cases h with
    | nil => exact ⟨_, by simpa using Takes.nil⟩
    | @cons _ s' _ f fs h1 h2 =>
      rw [List.cons_append, next_single] at h1
      cases hn : FrameDecoder.next b ⟨m, [x]⟩ with
      | panic => rw [hn] at h1; cases h1
      | ret r =>
        obtain ⟨o, t2⟩ := r
        rw [hn] at h1
        simp only [Outcome.ret.injEq, Prod.mk.injEq] at h1
        obtain ⟨rfl, rfl⟩ := h1
        obtain ⟨t', ht'⟩ := ih Y _ fs t h2
        refine ⟨t', ?_⟩
        rw [List.length_cons, List.take_succ_cons]
        refine .cons ?_ ht'
        rw [next_single, hn]

theorem frames_length (b : Build) : ∀ (X : List Block) (m : HMap U16 U32) (frames : List Frame) (t : FrameDecoder.State),
    Takes (FrameDecoder.next b) ⟨m, X⟩ frames t → frames.length ≤ X.length := by
  intro X
  induction X with
  | nil =>
    intro m frames t h
    cases h with
    | nil => simp
    | cons h1 _ => simp [FrameDecoder.next] at h1
  | cons x X ih =>
    intro m frames t h
    cases h with
    | nil => simp
    | @cons _ s' _ f fs h1 h2 =>
      rw [next_single] at h1
      cases hn : FrameDecoder.next b ⟨m, [x]⟩ with
      | panic => rw [hn] at h1; cases h1
      | ret r =>
        obtain ⟨o, t2⟩ := r
        rw [hn] at h1
        simp only [Outcome.ret.injEq, Prod.mk.injEq] at h1
        obtain ⟨rfl, rfl⟩ := h1
        have := ih _ fs t h2
        simp only [List.length_cons]; omega

theorem oks_append' (a c : List (Except Error Block)) : oks (a ++ c) = oks a ++ oks c := by
  induction a with
  | nil => rfl
  | cons x a ih =>
    cases x with
    | ok x => rw [List.cons_append, oks_ok, oks_ok, ih, List.cons_append]
    | error e => rw [List.cons_append, oks_error, oks_error, ih]

theorem oks_length_le (a : List (Except Error Block)) : (oks a).length ≤ a.length := by
  induction a with
  | nil => simp [oks]
  | cons x a ih =>
    cases x with
    | ok x => rw [oks_ok]; simp only [List.length_cons]; omega
    | error e => rw [oks_error]; simp only [List.length_cons]; omega

theorem dropLast_split {α : Type} (l : List α) : ∃ Y : List α, Y.length ≤ 1 ∧ l = l.dropLast ++ Y := by
  rcases List.eq_nil_or_concat l with rfl | ⟨l, a, rfl⟩
  · exact ⟨[], by simp, by simp⟩
  · exact ⟨[a], by simp, by simp⟩

theorem oks_all (a : List (Except Error Block)) (h : ∀ x ∈ a, ∃ d, x = .ok d) : (oks a).map .ok = a := by
  induction a with
  | nil => rfl
  | cons x a ih =>
    obtain ⟨d, rfl⟩ := h x (by simp)
    rw [oks_ok, List.map_cons, ih (fun y hy => h y (by simp [hy]))]

/-- What the pipeline puts out is what the frame decoder makes of the blocks. -/
theorem outputs_blocks {b : Build} {c : Config} {r : Reader} {S : List U8} (hr : Smooth r S) {frames : List Frame} {ended : Bool}
    (h : Outputs b c r frames ended) : ∃ items s e, Collects Sync.next (Sync.iter r Sync.ASM c.blockLength) items (some s) ∧
      Collects (FrameDecoder.next b) (FrameDecoder.new ((oks items).map (prep c.derandomize))) frames e ∧ e.isSome = ended := by
  obtain ⟨items, s, ps, h1, _⟩ := C26_first_markers r S Sync.ASM c.blockLength hr (by simp [Sync.ASM])
  obtain ⟨fs, e, h2, _⟩ := C35_frames b ((oks items).map (prep c.derandomize))
  obtain ⟨e', h3, h4⟩ := yields_of_collects b c.derandomize h2 _ s items h1 rfl
  obtain ⟨rfl, rfl⟩ := C52_deterministic b c r _ _ _ _ h ⟨e', h3, rfl⟩
  exact ⟨items, s, e, h1, h2, h4.symm⟩

/-- The first `Ok` blocks a pull sees. -/
theorem yields_takes (b : Build) (derand : Bool) {X : List Block} : ∀ {s t : Sync.Iter} {m : HMap U16 U32} {frames : List Frame} {u : FrameDecoder.State}
    {out : List Frame} {e : Option State}, Takes Sync.next s (X.map .ok) t → Takes (FrameDecoder.next b) ⟨m, X.map (prep derand)⟩ frames u →
    Yields b derand ⟨s, m⟩ out e → frames <+: out := by
  induction X with
  | nil =>
    intro s t m frames u out e _ hf _
    have := frames_length b _ _ _ _ hf
    cases frames with
    | nil => simp
    | cons f fs => simp at this
  | cons x X ih =>
    intro s t m frames u out e h hf hy
    cases h with
    | @cons _ s' _ _ _ h1 h2 =>
      have hpull : Pulls s (some x) s' := .ok h1
      cases hf with
      | nil => simp
      | @cons _ s2 _ f fs f1 f2 =>
        rw [List.map_cons, next_single] at f1
        cases hn : FrameDecoder.next b ⟨m, [prep derand x]⟩ with
        | panic => rw [hn] at f1; cases f1
        | ret r =>
          obtain ⟨o, t2⟩ := r
          rw [hn] at f1
          simp only [Outcome.ret.injEq, Prod.mk.injEq] at f1
          obtain ⟨rfl, rfl⟩ := f1
          cases hy with
          | done k => have := (pulls_unique hpull k).1; cases this
          | stop k k2 =>
            obtain ⟨a, rfl⟩ := pulls_unique hpull k
            cases a
            rw [hn] at k2; cases k2
          | panicked k k2 =>
            obtain ⟨a, rfl⟩ := pulls_unique hpull k
            cases a
            rw [hn] at k2; cases k2
          | frame k k2 k3 =>
            obtain ⟨a, rfl⟩ := pulls_unique hpull k
            cases a
            rw [hn] at k2
            cases k2
            exact (List.prefix_cons_inj _).2 (ih h2 f2 k3)

/-- C68 for the pipeline without Reed-Solomon, whatever the reads that come later do: all frames but the last of what has arrived so far are the first
frames put out (for any run that ends, by the end of the input or a panic). -/
theorem C68_pipeline_any (b : Build) (c : Config) (evs more : List Ev) (tail : Tail) (S : List U8) (hr : Smooth ⟨evs, .eof⟩ S)
    (frames frames' : List Frame) (ended ended' : Bool) (h : Outputs b c ⟨evs, .eof⟩ frames ended) (h' : Outputs b c ⟨evs ++ more, tail⟩ frames' ended') :
    frames.dropLast <+: frames' := by
  obtain ⟨items, s, e, h1, h2, _⟩ := outputs_blocks hr h
  obtain ⟨t, ht⟩ := C68_synchronize_any evs more tail S Sync.ASM c.blockLength hr (by simp [Sync.ASM]) items _ h1
  have hok := blocks_ok _ S Sync.ASM c.blockLength hr (by simp [Sync.ASM]) items _ h1
  rw [← oks_all _ hok] at ht
  obtain ⟨u, hu⟩ := h2.takes
  have hl := frames_length b _ _ _ _ hu
  obtain ⟨Y, hY1, hY2⟩ := dropLast_split items
  have hY3 := oks_length_le Y
  rw [hY2, oks_append', List.map_append] at hu
  rw [hY2, oks_append', List.map_append, List.length_append, List.length_map, List.length_map] at hl
  obtain ⟨u', hu'⟩ := frames_take b _ _ _ _ _ hu
  obtain ⟨e', hy, _⟩ := h'
  refine List.IsPrefix.trans ?_ (yields_takes b c.derandomize ht hu' hy)
  rw [List.dropLast_eq_take, List.length_map]
  exact List.take_prefix_take_left (by omega)

/-- C68 for the pipeline without Reed-Solomon: all frames but the last are final. -/
theorem C68_pipeline (b : Build) (c : Config) (r r' : Reader) (S T : List U8) (hr : Smooth r S) (hr' : Smooth r' (S ++ T))
    (frames frames' : List Frame) (ended ended' : Bool) (h : Outputs b c r frames ended) (h' : Outputs b c r' frames' ended') :
    frames.dropLast <+: frames' := by
  obtain ⟨items, s, e, h1, h2, _⟩ := outputs_blocks hr h
  obtain ⟨items', s', e', h1', h2', _⟩ := outputs_blocks hr' h'
  obtain ⟨Z, hZ⟩ := C68_synchronize_prefix r r' S T Sync.ASM c.blockLength hr hr' (by simp [Sync.ASM]) items items' _ _ h1 h1'
  obtain ⟨t, ht⟩ := h2.takes
  obtain ⟨Y, hY1, hY2⟩ := dropLast_split items
  have hl := frames_length b _ _ _ _ ht
  have key : ∀ (W : List (Except Error Block)), (oks (items.dropLast ++ W)).map (prep c.derandomize) =
      (oks items.dropLast).map (prep c.derandomize) ++ (oks W).map (prep c.derandomize) := by
    intro W; rw [oks_append', List.map_append]
  rw [hY2, key] at ht
  rw [hY2, key, List.length_append, List.length_map, List.length_map] at hl
  have hY3 := oks_length_le Y
  obtain ⟨t', ht'⟩ := frames_take b _ _ _ _ _ ht
  rw [← hZ, key] at h2'
  have hp := (C68_frame_decoder b _ ((oks Z).map (prep c.derandomize)) _ _ ht').prefix h2'
  refine List.IsPrefix.trans ?_ hp
  rw [List.dropLast_eq_take, List.length_map]
  exact List.take_prefix_take_left (by omega)

/-- Two frames have arrived, then a read fails: the first frame is put out. -/
example (b : Build) : ∃ frames' ended', Outputs b (Config.new 8) ⟨exPipeReader.script ++ [.err (.other 5), .data [0x1a]], .eof⟩ frames' ended' ∧
    ∃ f, frames'[0]? = some f ∧ f.data = [0x67#8, 0x6b#8, 0#8, 0#8, 5#8, 0#8, 1#8, 2#8] := by
  obtain ⟨items, t, hc⟩ := Sync.blocks_end Sync.ASM (by simp [Sync.ASM])
    (Sync.iter ⟨exPipeReader.script ++ [.err (.other 5), .data [0x1a]], .eof⟩ Sync.ASM 8) (Sync.iter_safe _ _ _) rfl
  obtain ⟨fs, e, hd, _⟩ := C35_frames b ((oks items).map (prep true))
  obtain ⟨e', h3, h4⟩ := yields_of_collects b true hd _ t items hc rfl
  have h' : Outputs b (Config.new 8) ⟨exPipeReader.script ++ [.err (.other 5), .data [0x1a]], .eof⟩ fs e'.isSome := ⟨e', h3, rfl⟩
  obtain ⟨frames, h1, h2⟩ := exPipe_outputs b
  have hs : Smooth exPipeReader exCadus := by
    refine ⟨?_, by decide, rfl⟩
    intro e he
    simp only [exPipeReader, List.mem_cons, List.not_mem_nil, or_false] at he
    rcases he with rfl | rfl <;> exact ⟨_, by decide, rfl⟩
  obtain ⟨Z, rfl⟩ := C68_pipeline_any b _ exPipeReader.script _ _ exCadus hs frames fs _ _ h1 h'
  obtain ⟨f, fs, rfl, e1, e2⟩ := List.map_eq_cons_iff.1 h2
  obtain ⟨g, gs, rfl, _, _⟩ := List.map_eq_cons_iff.1 e2
  exact ⟨_, _, h', f, rfl, e1⟩

/-- Two frames have arrived: whatever comes later, the first one has been seen. -/
example (b : Build) (T : List U8) (r' : Reader) (hr' : Smooth r' (exCadus ++ T)) (frames' : List Frame) (ended' : Bool)
    (h' : Outputs b (Config.new 8) r' frames' ended') : ∃ f, frames'[0]? = some f ∧ f.data = [0x67#8, 0x6b#8, 0#8, 0#8, 5#8, 0#8, 1#8, 2#8] := by
  obtain ⟨frames, h1, h2⟩ := exPipe_outputs b
  have hs : Smooth exPipeReader exCadus := by
    refine ⟨?_, by decide, rfl⟩
    intro e he
    simp only [exPipeReader, List.mem_cons, List.not_mem_nil, or_false] at he
    rcases he with rfl | rfl <;> exact ⟨_, by decide, rfl⟩
  have := C68_pipeline b _ exPipeReader r' exCadus T hs hr' frames frames' _ _ h1 h'
  obtain ⟨Z, rfl⟩ := this
  obtain ⟨f, fs, rfl, e1, e2⟩ := List.map_eq_cons_iff.1 h2
  obtain ⟨g, gs, rfl, _, _⟩ := List.map_eq_cons_iff.1 e2
  exact ⟨f, rfl, e1⟩

/-- C68 for the pipeline with Reed-Solomon, whatever the schedules of the two runs: once both have ended, all frames of the shorter run but its last
are the first frames of the longer one. -/
theorem C68_pipeline_rs (b : Build) (k : Codec) (c : Config) (r r' : Reader) (S T : List U8) (hr : Smooth r S) (hr' : Smooth r' (S ++ T))
    (s s' : RsStage.State) (h : Runs b k c r s) (h' : Runs b k c r' s') (he : s.cons = .ended) (he' : s'.cons = .ended) :
    s.got.dropLast <+: s'.got := by
  obtain ⟨o, p, frames, x, hc, h1, h2⟩ := h
  obtain ⟨o', p', frames', x', hc', h1', h2'⟩ := h'
  obtain ⟨rfl, rfl⟩ : o = o' ∧ p = p' := by
    rw [hc] at hc'
    simpa using hc'
  have g := C42_none p (RS.job k o) frames s h2 he
  have g' := C42_none p (RS.job k o) frames' s' h2' he'
  have hp := List.IsPrefix.map (f := RS.job k o) (C68_pipeline b c r r' S T hr hr' frames frames' x x' h1 h1')
  rw [List.map_dropLast, ← g, ← g', ← List.map_dropLast] at hp
  rw [List.prefix_iff_getElem?] at hp ⊢
  intro i hi
  have := hp i (by simpa using hi)
  rw [List.getElem?_map, List.getElem_map] at this
  cases hq : s'.got[i]? with
  | none => rw [hq] at this; cases this
  | some y => rw [hq] at this; simpa using this

/-- And the packets of those frames are the first packets of the longer run. -/
theorem C68_pipeline_packets (b : Build) (c : Config) (r r' : Reader) (S T : List U8) (hr : Smooth r S) (hr' : Smooth r' (S ++ T))
    (frames frames' : List Frame) (ended ended' : Bool) (h : Outputs b c r frames ended) (h' : Outputs b c r' frames' ended')
    (izone trailer : Nat) (ps ps' : List Packet) (e e' : Option FramedPackets.State)
    (hp : Collects FramedPackets.next (FramedPackets.new frames.dropLast izone trailer) ps e)
    (hp' : Collects FramedPackets.next (FramedPackets.new frames' izone trailer) ps' e') : ps <+: ps' := by
  obtain ⟨Z, rfl⟩ := C68_pipeline b c r r' S T hr hr' frames frames' ended ended' h h'
  obtain ⟨t, ht⟩ := hp.takes
  exact (C68_packet_decoder _ Z izone trailer ps t ht).prefix hp'

end Ccsds
