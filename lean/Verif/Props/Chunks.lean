import Verif.Proofs.Chunks
import Verif.Model.BufReader
import Verif.Model.Info
import Verif.Model.Filter
import Verif.Model.Diff
import Verif.Model.Framing
/-!
# C100: how the input is cut into reads, and whether it is buffered, does not matter, even when reads fail
-/
namespace Ccsds
open Spec

/-! ## Decoders -/

/-- `decode_packets` -/
theorem C100_decode_packets (r r' : Reader) (h : SameStream r r') (items : List (Except Error Packet)) (e : Option PacketDecoder)
    (hc : Collects PacketDecoder.next (PacketDecoder.new r) items e) : ∃ e', Collects PacketDecoder.next (PacketDecoder.new r') items e' ∧ e'.isSome = e.isSome := by
  have h1 := hc.mapState PacketDecoder.next_flat
  have hf : (PacketDecoder.new r).flat = (PacketDecoder.new r').flat := by
    simp only [PacketDecoder.new, PacketDecoder.flat, Reader.flat_eq h]
  rw [hf] at h1
  obtain ⟨e', h2, h3⟩ := h1.ofMapState PacketDecoder.next_flat
  exact ⟨e', h2, by simpa using h3⟩

/-- `synchronize`, for every marker and block length -/
theorem C100_synchronize (r r' : Reader) (h : SameStream r r') (asm : List U8) (len : Nat) (items : List (Except Error Block)) (e : Option Sync.Iter)
    (hc : Collects Sync.next (Sync.iter r asm len) items e) : ∃ e', Collects Sync.next (Sync.iter r' asm len) items e' ∧ e'.isSome = e.isSome := by
  have h1 := hc.mapState Sync.next_flat
  have hf : (Sync.iter r asm len).flat = (Sync.iter r' asm len).flat := by
    simp only [Sync.iter, Sync.new, Sync.State.withAsm, Sync.Iter.flat, Sync.State.flat, Bytes.flat, Bytes.new, Reader.flat_eq h]
  rw [hf] at h1
  obtain ⟨e', h2, h3⟩ := h1.ofMapState Sync.next_flat
  exact ⟨e', h2, by simpa using h3⟩

namespace Pipeline

theorem pulls_flat {s y : Sync.Iter} {o : Option Block} (h : Pulls s o y) : Pulls s.flat o y.flat := by
  induction h with
  | done h => exact .done (by rw [Sync.next_flat, h]; rfl)
  | ok h => exact .ok (by rw [Sync.next_flat, h]; rfl)
  | skip h _ ih => exact .skip (by rw [Sync.next_flat, h]; rfl) ih

theorem pulls_of_flat {s y : Sync.Iter} {o : Option Block} (h : Pulls s.flat o y) : ∃ y', Pulls s o y' ∧ y = y'.flat := by
  generalize hs : s.flat = s0 at h
  induction h generalizing s with
  | done h =>
    subst hs
    rw [Sync.next_flat] at h
    cases hn : Sync.next s with
    | panic => rw [hn] at h; cases h
    | ret z =>
      obtain ⟨o, s1⟩ := z
      rw [hn] at h
      simp only [Outcome.mapState, Outcome.ret.injEq, Prod.mk.injEq] at h
      obtain ⟨rfl, rfl⟩ := h
      exact ⟨_, .done hn, rfl⟩
  | ok h =>
    subst hs
    rw [Sync.next_flat] at h
    cases hn : Sync.next s with
    | panic => rw [hn] at h; cases h
    | ret z =>
      obtain ⟨o, s1⟩ := z
      rw [hn] at h
      simp only [Outcome.mapState, Outcome.ret.injEq, Prod.mk.injEq] at h
      obtain ⟨rfl, rfl⟩ := h
      exact ⟨_, .ok hn, rfl⟩
  | skip h _ ih =>
    subst hs
    rw [Sync.next_flat] at h
    cases hn : Sync.next s with
    | panic => rw [hn] at h; cases h
    | ret z =>
      obtain ⟨o, s1⟩ := z
      rw [hn] at h
      simp only [Outcome.mapState, Outcome.ret.injEq, Prod.mk.injEq] at h
      obtain ⟨rfl, rfl⟩ := h
      obtain ⟨y', h1, h2⟩ := ih rfl
      exact ⟨y', .skip hn h1, h2⟩

theorem yields_flat {b : Build} {d : Bool} {s : State} {fs : List Frame} {e : Option State} (h : Yields b d s fs e) :
    ∃ e', Yields b d ⟨s.sync.flat, s.counters⟩ fs e' ∧ e'.isSome = e.isSome := by
  induction h with
  | done h => exact ⟨_, .done (pulls_flat h), rfl⟩
  | stop h k => exact ⟨_, .stop (pulls_flat h) k, rfl⟩
  | panicked h k => exact ⟨_, .panicked (pulls_flat h) k, rfl⟩
  | frame h k _ ih => obtain ⟨e', h1, h2⟩ := ih; exact ⟨e', .frame (pulls_flat h) k h1, h2⟩

theorem yields_of_flat {b : Build} {d : Bool} {s : Sync.Iter} {m : HMap U16 U32} {fs : List Frame} {e : Option State} (h : Yields b d ⟨s.flat, m⟩ fs e) :
    ∃ e', Yields b d ⟨s, m⟩ fs e' ∧ e'.isSome = e.isSome := by
  generalize hs : (⟨s.flat, m⟩ : State) = s0 at h
  induction h generalizing s m with
  | done h => subst hs; obtain ⟨y, h1, _⟩ := pulls_of_flat h; exact ⟨_, .done h1, rfl⟩
  | stop h k => subst hs; obtain ⟨y, h1, _⟩ := pulls_of_flat h; exact ⟨_, .stop h1 k, rfl⟩
  | panicked h k => subst hs; obtain ⟨y, h1, _⟩ := pulls_of_flat h; exact ⟨_, .panicked h1 k, rfl⟩
  | frame h k _ ih =>
    subst hs
    obtain ⟨y, h1, rfl⟩ := pulls_of_flat h
    obtain ⟨e', h2, h3⟩ := ih rfl
    exact ⟨e', .frame h1 k h2, h3⟩

end Pipeline

/-- The pipeline without Reed-Solomon -/
theorem C100_pipeline (b : Build) (c : Pipeline.Config) (r r' : Reader) (h : SameStream r r') (frames : List Frame) (ended : Bool)
    (ho : Pipeline.Outputs b c r frames ended) : Pipeline.Outputs b c r' frames ended := by
  obtain ⟨e, h1, rfl⟩ := ho
  obtain ⟨e1, h2, h3⟩ := Pipeline.yields_flat h1
  have hf : (Pipeline.start c r).sync.flat = (Sync.iter r' Sync.ASM c.blockLength).flat := by
    simp only [Pipeline.start, Sync.iter, Sync.new, Sync.State.withAsm, Sync.Iter.flat, Sync.State.flat, Bytes.flat, Bytes.new, Reader.flat_eq h]
  rw [hf] at h2
  obtain ⟨e2, h4, h5⟩ := Pipeline.yields_of_flat h2
  exact ⟨e2, h4, by rw [h5, h3]⟩

/-- The pipeline with Reed-Solomon: the same states, for every schedule -/
theorem C100_pipeline_rs (b : Build) (k : Codec) (c : Pipeline.Config) (r r' : Reader) (h : SameStream r r') (s : RsStage.State)
    (hr : Pipeline.Runs b k c r s) : Pipeline.Runs b k c r' s := by
  obtain ⟨o, p, frames, ended, h1, h2, h3⟩ := hr
  exact ⟨o, p, frames, ended, h1, C100_pipeline b c r r' h frames ended h2, h3⟩

/-! ## Commands -/

/-- `ccsds info` -/
theorem C100_info (b : Build) (τ : Epoch → Int) (cds : Bool) (r r' : Reader) (h : SameStream r r') (o : Option Info.Info) (hr : Info.Runs b τ cds r o) :
    Info.Runs b τ cds r' o := by
  cases hr with
  | panicked hc =>
    obtain ⟨e', h1, h2⟩ := C100_decode_packets r r' h _ _ hc
    cases e' with
    | none => exact .panicked h1
    | some _ => cases h2
  | loopPanicked hc hl =>
    obtain ⟨e', h1, h2⟩ := C100_decode_packets r r' h _ _ hc
    cases e' with
    | none => cases h2
    | some _ => exact .loopPanicked h1 hl
  | done hc hl hp =>
    obtain ⟨e', h1, h2⟩ := C100_decode_packets r r' h _ _ hc
    cases e' with
    | none => cases h2
    | some _ => exact .done h1 hl hp

theorem Filter.mapWhileOk_flat (s : PacketDecoder) : Filter.mapWhileOk PacketDecoder.next s.flat = (Filter.mapWhileOk PacketDecoder.next s).mapState PacketDecoder.flat := by
  unfold Filter.mapWhileOk
  rw [PacketDecoder.next_flat]
  cases PacketDecoder.next s with
  | panic => rfl
  | ret y =>
    obtain ⟨o, s1⟩ := y
    match o with
    | none => rfl
    | some (.ok a) => rfl
    | some (.error e) => rfl

/-- `ccsds filter` -/
theorem C100_filter (b : Build) (τ : Epoch → Int) (r r' : Reader) (h : SameStream r r') (incl excl : List U16) (before after : Option Epoch) (o : Filter.FResult)
    (hr : Filter.Runs b τ r incl excl before after o) : Filter.Runs b τ r' incl excl before after o := by
  cases hr with
  | noFilters h1 h2 h3 h4 => exact .noFilters h1 h2 h3 h4
  | @run items ends hn hp =>
    refine .run hn ?_
    split at hp
    · rename_i ht
      rw [if_pos ht]
      obtain ⟨pitems, e, h1, gitems, s, h2, h3⟩ := hp
      obtain ⟨e', h4, h5⟩ := C100_decode_packets r r' h _ _ h1
      refine ⟨pitems, e', h4, gitems, s, h2, ?_⟩
      cases e <;> cases e' <;> first | exact h3 | cases h5
    · rename_i ht
      rw [if_neg ht]
      obtain ⟨ps, e, h1, h2, h3⟩ := hp
      have h4 := h1.mapState Filter.mapWhileOk_flat
      have hf : (PacketDecoder.new r).flat = (PacketDecoder.new r').flat := by
        simp only [PacketDecoder.new, PacketDecoder.flat, Reader.flat_eq h]
      rw [hf] at h4
      obtain ⟨e', h5, h6⟩ := h4.ofMapState Filter.mapWhileOk_flat
      exact ⟨ps, e', h5, h2, by rw [h3, h6]; simp⟩

/-- Two files are read alike: both cannot be opened, or they deliver the same stream. -/
def SameFile (f f' : Option MFile) : Prop :=
  (f = none ∧ f' = none) ∨ ∃ c r r', f = some ⟨c, r⟩ ∧ f' = some ⟨c, r'⟩ ∧ SameStream r r'

/-- `ccsds diff` -/
theorem C100_diff (crc : List U8 → U32) (left left' right right' : Option MFile) (showCounts : Bool) (o : Diff.DResult) (hl : SameFile left left')
    (hr : SameFile right right') (h : Diff.Runs crc left right showCounts o) : Diff.Runs crc left' right' showCounts o := by
  have key : ∀ {f f' : Option MFile}, SameFile f f' → ∀ {x items e}, f = some x → Collects PacketDecoder.next (PacketDecoder.new x.reader) items e →
      ∃ y e', f' = some y ∧ Collects PacketDecoder.next (PacketDecoder.new y.reader) items e' ∧ e'.isSome = e.isSome := by
    intro f f' hs x items e hx hc
    rcases hs with ⟨h1, _⟩ | ⟨c, r, r', h1, h2, h3⟩
    · rw [h1] at hx; cases hx
    · rw [h1] at hx
      cases hx
      obtain ⟨e', h4, h5⟩ := C100_decode_packets r r' h3 _ _ hc
      exact ⟨_, e', h2, h4, h5⟩
  have keyNone : ∀ {f f' : Option MFile}, SameFile f f' → f = none → f' = none := by
    intro f f' hs hx
    rcases hs with ⟨_, h1⟩ | ⟨c, r, r', h1, _, _⟩
    · exact h1
    · rw [h1] at hx; cases hx
  cases h with
  | noLeft h => exact .noLeft (keyNone hl h)
  | leftPanics h1 h2 =>
    obtain ⟨y, e', h3, h4, h5⟩ := key hl h1 h2
    cases e' with
    | none => exact .leftPanics h3 h4
    | some _ => cases h5
  | noRight h1 h2 h3 =>
    obtain ⟨y, e', h4, h5, h6⟩ := key hl h1 h2
    cases e' with
    | none => cases h6
    | some _ => exact .noRight h4 h5 (keyNone hr h3)
  | rightPanics h1 h2 h3 h4 =>
    obtain ⟨y, e', h5, h6, h7⟩ := key hl h1 h2
    obtain ⟨z, e'', h8, h9, h10⟩ := key hr h3 h4
    cases e' with
    | none => cases h7
    | some _ =>
      cases e'' with
      | none => exact .rightPanics h5 h6 h8 h9
      | some _ => cases h10
  | compared h1 h2 h3 h4 =>
    obtain ⟨y, e', h5, h6, h7⟩ := key hl h1 h2
    obtain ⟨z, e'', h8, h9, h10⟩ := key hr h3 h4
    cases e' with
    | none => cases h7
    | some _ =>
      cases e'' with
      | none => cases h10
      | some _ => exact .compared h5 h6 h8 h9

namespace Merger
variable {Path : Type} [DecidableEq Path]

omit [DecidableEq Path] in
theorem pointers_same (b : Build) (τ : Epoch → Int) (m : Merger Path) (path : Path) (c : List U8) (r r' : Reader) (h : SameStream r r')
    (o : Option (List (Ptr Path))) (hp : m.Pointers b τ path ⟨c, r⟩ o) : m.Pointers b τ path ⟨c, r'⟩ o := by
  obtain ⟨items, e, h1, gitems, s, h2, h3⟩ := hp
  obtain ⟨e', h4, h5⟩ := C100_decode_packets r r' h _ _ h1
  refine ⟨items, e', h4, gitems, s, h2, ?_⟩
  generalize m.pointersLoop b τ path (oks gitems) [] = x at h3 ⊢
  cases e <;> cases e' <;> cases x <;> first | exact h3 | cases h5

omit [DecidableEq Path] in
theorem index_same (b : Build) (τ : Epoch → Int) (m : Merger Path) (files files' : Path → Option MFile) (h : ∀ p, SameFile (files p) (files' p))
    (ps : List Path) (idx : List (Ptr Path)) (o : Option (List (Ptr Path))) (hi : Index b τ m files ps idx o) : Index b τ m files' ps idx o := by
  induction hi with
  | done => exact .done
  | @panicked p _ f _ hf hp =>
    rcases h p with ⟨h1, _⟩ | ⟨c, r, r', h1, h2, h3⟩
    · rw [h1] at hf; cases hf
    · rw [h1] at hf
      cases hf
      exact .panicked h2 (pointers_same b τ m p c r r' h3 _ hp)
  | @step p _ f _ _ _ _ _ hf hp q1 q2 _ ih =>
    rcases h p with ⟨h1, _⟩ | ⟨c, r, r', h1, h2, h3⟩
    · rw [h1] at hf; cases hf
    · rw [h1] at hf
      cases hf
      exact .step h2 (pointers_same b τ m p c r r' h3 _ hp) q1 q2 ih

omit [DecidableEq Path] in
theorem emit_same (files files' : Path → Option MFile) (h : ∀ p, SameFile (files p) (files' p)) : ∀ (ps : List (Ptr Path)) (out : List (List U8)),
    emit files ps out = emit files' ps out := by
  intro ps
  induction ps with
  | nil => intro out; rfl
  | cons p ps ih =>
    intro out
    rw [emit, emit]
    rcases h p.path with ⟨h1, h2⟩ | ⟨c, r, r', h1, h2, _⟩
    · rw [h1, h2]
    · rw [h1, h2]
      simp only
      split
      · rfl
      · exact ih _

end Merger

/-- `Merger::merge`: the same possible results -/
theorem C100_merge {Path : Type} [DecidableEq Path] (b : Build) (τ : Epoch → Int) (m : Merger Path) (files files' : Path → Option MFile)
    (h : ∀ p, SameFile (files p) (files' p)) (o : Merger.MResult) (hm : Merger.Merges b τ m files o) : Merger.Merges b τ m files' o := by
  have hne : ∀ p, files p ≠ none → files' p ≠ none := by
    intro p hp
    rcases h p with ⟨h1, _⟩ | ⟨c, r, r', _, h2, _⟩
    · exact absurd h1 hp
    · rw [h2]; simp
  cases hm with
  | @openFails p hp hf =>
    refine .openFails hp ?_
    rcases h p with ⟨_, h2⟩ | ⟨c, r, r', h1, _, _⟩
    · exact h2
    · rw [h1] at hf; cases hf
  | panicked h1 h2 h3 => exact .panicked (fun p hp => hne p (h1 p hp)) h2 (Merger.index_same b τ m files files' h _ _ _ h3)
  | finished h1 h2 h3 h4 =>
    rw [Merger.emit_same files files' h]
    exact .finished (fun p hp => hne p (h1 p hp)) h2 (Merger.index_same b τ m files files' h _ _ _ h3) h4

/-- `ccsds framing` -/
theorem C100_framing (b : Build) (k : Codec) (a : Framing.Args) (workers : Nat) (r r' : Reader) (h : SameStream r r') (s : Framing.Summary) (w : List (List U8))
    (hr : Framing.Runs b k a workers r s w) : Framing.Runs b k a workers r' s w := by
  cases hr with
  | plain h1 h2 h3 => exact .plain h1 (C100_pipeline b _ r r' h _ _ h2) h3
  | rs h1 h2 h3 h4 => exact .rs h1 (C100_pipeline_rs b k _ r r' h _ h2) h3 h4

/-- The same stream with a failure and an empty read in it, cut in two ways. -/
example : SameStream ⟨[.data [1, 2, 3], .err (.other 5), .data [], .data [4]], .eof⟩ ⟨[.data [1], .data [2, 3], .err (.other 5), .data [], .data [4]], .eof⟩ :=
  ⟨rfl, rfl⟩
/-- Not the same: the failure comes a byte later. -/
example : ¬ SameStream ⟨[.data [1, 2, 3], .err (.other 5), .data [4]], .eof⟩ ⟨[.data [1, 2, 3, 4], .err (.other 5)], .eof⟩ := by
  intro h; exact absurd h.1 (by decide)

/-! ## `BufReader` -/

/-- The model's `read_exact` is the standard library's loop over `read`. -/
theorem C100_read_exact (r : Reader) (n : Nat) : Exact Reader.read r n [] (r.readExact n) := by
  have key : ∀ (es : List Ev) (t : Tail) (n : Nat) (acc : List U8), Exact Reader.read ⟨es, t⟩ n acc
      ((Reader.readExactGo t es n acc).1, (Reader.readExactGo t es n acc).2.1, ⟨(Reader.readExactGo t es n acc).2.2, t⟩) := by
    intro es t
    induction es with
    | nil =>
      intro n acc
      cases n with
      | zero => rw [readExactGo_zero]; exact .full
      | succ n =>
        cases t with
        | eof => exact .eof rfl
        | fail c => exact .fail rfl (by simp)
    | cons e es ih =>
      intro n acc
      cases n with
      | zero => rw [readExactGo_zero]; exact .full
      | succ n =>
        cases e with
        | err k =>
          simp only [Reader.readExactGo]
          split
          · rename_i hk; subst hk; exact .again rfl (ih _ _)
          · rename_i hk; exact .fail rfl hk
        | data c =>
          simp only [Reader.readExactGo]
          match c with
          | [] => exact .eof rfl
          | x :: c =>
            rw [if_neg (by simp)]
            split
            · rename_i hl
              refine .more ?_ (ih _ _)
              simp only [Reader.read]
              rw [if_pos hl]
            · rename_i hl
              refine .more (x := x) (c := c.take n) (s' := ⟨.data ((x :: c).drop (n + 1)) :: es, t⟩) ?_ ?_
              · simp only [Reader.read]
                rw [if_neg hl]
                rfl
              · have : n + 1 - (x :: c.take n).length = 0 := by
                  simp only [List.length_cons, List.length_take] at hl ⊢
                  omega
                rw [this]
                exact .full
  exact key r.script r.tail n []

namespace BufReader

/-- What is still to come, buffered or not, as a plain reader. -/
def rest (s : BufReader) : Reader := ⟨(if s.buf = [] then [] else [.data s.buf]) ++ s.inner.script, s.inner.tail⟩

/-- The rest, cut into single bytes. -/
def singles (s : BufReader) : List Ev := s.rest.script.flatMap single

/-- What one `read` takes from a stream cut into single bytes. -/
def Takes1 (t : Tail) (n : Nat) (F F' : List Ev) : Except IoKind (List U8) → Prop
  | .ok [] => F = .data [] :: F' ∨ (F = [] ∧ F' = [] ∧ t = .eof)
  | .ok (x :: c) => F = (x :: c).map (fun y => .data [y]) ++ F' ∧ c.length < n
  | .error k => F = .err k :: F' ∨ (F = [] ∧ F' = [] ∧ ∃ c, t = .fail c ∧ k = .other c)

theorem map_single (c : List U8) : c.map (fun y => Ev.data [y]) = (if c = [] then [] else [Ev.data c]).flatMap single := by
  cases c <;> simp [single]

theorem reader_takes (r : Reader) (n : Nat) (hn : 1 ≤ n) :
    Takes1 r.tail n (r.script.flatMap single) ((r.read n).2.script.flatMap single) (r.read n).1 ∧ (r.read n).2.tail = r.tail := by
  obtain ⟨es, t⟩ := r
  cases es with
  | nil => cases t <;> simp [Reader.read, Takes1]
  | cons e es =>
    cases e with
    | err k => simp [Reader.read, Takes1, single]
    | data c =>
      simp only [Reader.read]
      match c with
      | [] => simp [Takes1, single]
      | x :: c =>
        split
        · rename_i hl
          simp only [List.length_cons] at hl
          exact ⟨⟨by simp [single], by omega⟩, rfl⟩
        · rename_i hl
          simp only [List.length_cons] at hl
          obtain ⟨m, rfl⟩ : ∃ m, n = m + 1 := ⟨n - 1, by omega⟩
          refine ⟨⟨?_, ?_⟩, rfl⟩
          · have hd : c.drop m ≠ [] := by
              intro h0
              have := congrArg List.length h0
              simp only [List.length_drop, List.length_nil] at this
              omega
            simp only [List.flatMap_cons, List.drop_succ_cons, Reader.single_ne hd, Reader.single_ne (List.cons_ne_nil x c)]
            rw [← List.append_assoc, ← List.map_append, List.cons_append, List.take_append_drop]
          · simp only [List.length_take]; omega

theorem read_takes (s : BufReader) (n : Nat) (hn : 1 ≤ n) :
    Takes1 s.inner.tail n s.singles (s.read n).2.singles (s.read n).1 ∧ (s.read n).2.inner.tail = s.inner.tail := by
  obtain ⟨cap, buf, r⟩ := s
  unfold read
  by_cases hb : buf = []
  · subst hb
    simp only [List.isEmpty_nil, Bool.true_and, decide_eq_true_eq, if_true]
    by_cases hc : cap ≤ n
    · rw [if_pos hc]
      have := reader_takes r n hn
      simpa [singles, rest] using this
    · rw [if_neg hc]
      have h1 := reader_takes r cap (by omega)
      cases hr : r.read cap with
      | mk o r1 =>
        rw [hr] at h1
        obtain ⟨h1, h2⟩ := h1
        match o with
        | .error k => exact ⟨by simpa [singles, rest, Takes1] using h1, h2⟩
        | .ok [] => exact ⟨by simpa [singles, rest, Takes1] using h1, h2⟩
        | .ok (x :: c) =>
          obtain ⟨m, rfl⟩ : ∃ m, n = m + 1 := ⟨n - 1, by omega⟩
          obtain ⟨h3, h4⟩ := h1
          refine ⟨⟨?_, by simp only [List.length_take]; omega⟩, h2⟩
          simp only [singles, rest, if_true, List.nil_append, List.drop_succ_cons, List.flatMap_append]
          rw [h3, ← map_single, ← List.append_assoc, ← List.map_append, List.cons_append, List.take_append_drop]
  · have : buf.isEmpty = false := by simpa using hb
    simp only [this, Bool.false_and, Bool.false_eq_true, if_false]
    match buf with
    | [] => exact absurd rfl hb
    | x :: c =>
      obtain ⟨m, rfl⟩ : ∃ m, n = m + 1 := ⟨n - 1, by omega⟩
      refine ⟨⟨?_, by simp only [List.length_take]; omega⟩, trivial⟩
      simp only [singles, rest, List.drop_succ_cons, List.flatMap_append]
      rw [← map_single, ← map_single, ← List.append_assoc, ← List.map_append, List.cons_append, List.take_append_drop]

theorem exact_go {s : BufReader} {n : Nat} {acc : List U8} {out : Option IoKind × List U8 × BufReader} (h : Exact read s n acc out) :
    Reader.readExactGo s.inner.tail s.singles n acc = (out.1, out.2.1, out.2.2.singles) ∧ out.2.2.inner.tail = s.inner.tail := by
  induction h with
  | full => exact ⟨readExactGo_zero _ _ _, rfl⟩
  | @eof s s' n acc hr =>
    obtain ⟨h1, h2⟩ := read_takes s (n + 1) (by omega)
    rw [hr] at h1 h2
    refine ⟨?_, h2⟩
    rcases h1 with h1 | ⟨h1, h3, h4⟩
    · rw [h1]; simp [Reader.readExactGo]
    · rw [h1, h3, h4]; simp [Reader.readExactGo]
  | @more s s' n acc x c out hr _ ih =>
    obtain ⟨h1, h2⟩ := read_takes s (n + 1) (by omega)
    rw [hr] at h1 h2
    obtain ⟨h3, h4⟩ := h1
    obtain ⟨i1, i2⟩ := ih
    refine ⟨?_, by rw [i2, h2]⟩
    rw [h3, Reader.readExactGo_singles, if_pos (by simp only [List.length_cons]; omega), ← h2]
    exact i1
  | @again s s' n acc out hr _ ih =>
    obtain ⟨h1, h2⟩ := read_takes s (n + 1) (by omega)
    rw [hr] at h1 h2
    obtain ⟨i1, i2⟩ := ih
    refine ⟨?_, by rw [i2, h2]⟩
    rcases h1 with h1 | ⟨_, _, c, _, h4⟩
    · rw [h1]
      simp only [Reader.readExactGo, if_true]
      rw [← h2]
      exact i1
    · cases h4
  | @fail s s' n acc k hr hk =>
    obtain ⟨h1, h2⟩ := read_takes s (n + 1) (by omega)
    rw [hr] at h1 h2
    refine ⟨?_, h2⟩
    rcases h1 with h1 | ⟨h1, h3, c, h4, rfl⟩
    · rw [h1]; simp only [Reader.readExactGo, if_neg hk]
    · rw [h1, h3, h4]; simp [Reader.readExactGo]

theorem buffered_go {s : BufReader} {n : Nat} (h : n ≤ s.buf.length) :
    Reader.readExactGo s.inner.tail s.singles n [] = (none, s.buf.take n, ({ s with buf := s.buf.drop n } : BufReader).singles) := by
  have hs : ∀ t : BufReader, t.singles = t.buf.map (fun y => Ev.data [y]) ++ t.inner.script.flatMap single := by
    intro t
    rw [singles, rest, List.flatMap_append, ← map_single]
  rw [hs, hs, Reader.readExactGo_singles]
  split
  · rename_i hl
    have : n = s.buf.length := by omega
    subst this
    simp [readExactGo_zero]
  · simp

end BufReader

/-- C100: a byte read through a `BufReader` (or an end of file, or a failure) is what reading without it gives, and what is left is the same stream. -/
theorem C100_buffered_read (s s' : BufReader) (x : Except IoKind (List U8)) (h : s.read 1 = (x, s')) :
    ∃ r', s.rest.read 1 = (x, r') ∧ SameStream r' s'.rest := by
  obtain ⟨h1, h2⟩ := BufReader.read_takes s 1 (by omega)
  rw [h] at h1 h2
  have hf := Reader.read_one_flat s.rest
  have hflat : s.rest.flat = ⟨s.singles, s.inner.tail⟩ := rfl
  have hx : s.rest.flat.read 1 = (x, ⟨s'.singles, s'.inner.tail⟩) := by
    rw [hflat]
    match x with
    | .ok [] =>
      rcases h1 with h1 | ⟨h1, h3, h4⟩
      · rw [h1, h2]; simp [Reader.read]
      · rw [h1, h3, h2, h4]; simp [Reader.read]
    | .ok [y] =>
      obtain ⟨h1, _⟩ := h1
      rw [h1, h2]; simp [Reader.read]
    | .ok (y :: z :: c) =>
      obtain ⟨_, h1⟩ := h1
      simp at h1
    | .error k =>
      rcases h1 with h1 | ⟨h1, h3, c, h4, rfl⟩
      · rw [h1, h2]; simp [Reader.read]
      · rw [h1, h3, h2, h4]; simp [Reader.read]
  rw [hx] at hf
  simp only [Prod.mk.injEq] at hf
  obtain ⟨h3, h4⟩ := hf
  refine ⟨(s.rest.read 1).2, ?_, ?_⟩
  · rw [h3]
  · have h5 := congrArg Reader.script h4
    have h6 := congrArg Reader.tail h4
    exact ⟨h5.symm, h6.symm⟩

/-- C100: the same for `read_exact`, of any length. -/
theorem C100_buffered_read_exact (s s' : BufReader) (n : Nat) (k : Option IoKind) (got : List U8) (h : s.ReadsExact n (k, got, s')) :
    ∃ r', s.rest.readExact n = (k, got, r') ∧ SameStream r' s'.rest := by
  have hgo : Reader.readExactGo s.inner.tail s.singles n [] = (k, got, s'.singles) ∧ s'.inner.tail = s.inner.tail := by
    cases h with
    | buffered hl => exact ⟨BufReader.buffered_go hl, rfl⟩
    | loop _ he => exact BufReader.exact_go he
  have hf := Reader.readExact_flat s.rest n
  have hx : s.rest.flat.readExact n = (k, got, ⟨s'.singles, s'.inner.tail⟩) := by
    show Reader.readExact ⟨s.singles, s.inner.tail⟩ n = _
    unfold Reader.readExact
    simp only [hgo.1, hgo.2]
  rw [hx] at hf
  simp only [Prod.mk.injEq] at hf
  obtain ⟨h3, h4, h5⟩ := hf
  refine ⟨(s.rest.readExact n).2.2, by rw [h3, h4], ?_⟩
  exact ⟨(congrArg Reader.script h5).symm, (congrArg Reader.tail h5).symm⟩

/-- A new `BufReader` has the stream of its reader before it. -/
theorem C100_buffered_new (cap : Nat) (r : Reader) : (BufReader.withCapacity cap r).rest = r := rfl

/-- A buffer of four bytes before a reader of six and two: two bytes are asked for, four are fetched. -/
example : (BufReader.withCapacity 4 ⟨[.data [1, 2, 3, 4, 5, 6], .data [7, 8]], .eof⟩).read 2 = (.ok [1, 2], ⟨4, [3, 4], ⟨[.data [5, 6], .data [7, 8]], .eof⟩⟩) := rfl
/-- Then three bytes more by `read_exact`. -/
example : (⟨4, [3, 4], ⟨[.data [5, 6], .data [7, 8]], .eof⟩⟩ : BufReader).ReadsExact 3 (none, [3, 4, 5], ⟨4, [6], ⟨[.data [7, 8]], .eof⟩⟩) :=
  .loop (by decide) (.more (x := 3) (c := [4]) rfl (.more (x := 5) (c := []) rfl .full))

end Ccsds
