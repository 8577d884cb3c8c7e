import Verif.Props.Sync
import Verif.Props.Gaps
import Verif.Props.Interrupts
import Verif.Props.ReadErrors
import Verif.Props.AnyReads
import Verif.Props.PatternHits
import Verif.Props.Prompt
import Verif.Props.Streaming
import Verif.Props.StreamingPipeline
import Verif.Props.Sizes
import Verif.Props.Rollover
/-!
# Concrete cases: synchronization and streaming

Each theorem of `Props/Sync`, `Props/Gaps`, `Props/Interrupts`, `Props/ReadErrors`, `Props/AnyReads`, `Props/PatternHits`, `Props/Prompt`, `Props/Streaming`,
`Props/StreamingPipeline` and `Props/Sizes` that has hypotheses, applied to concrete data that meets them. Where `example` is followed directly by `:=`, its statement is that
of the theorem at these arguments.
-/
namespace Ccsds.Cases.Sync
open Spec

/-! ## C26–C30: two blocks behind a one-bit shift (`exStream`) -/

/-- The stream of `Props/Sync`, in two chunks, and in one. -/
def two : Reader := ⟨[.data [0x2a#8], .data [0xaa#8, 0xaa#8, 0xaa#8, 0x80#8]], .eof⟩
def one : Reader := ⟨[.data exStream], .eof⟩

theorem two_smooth : Smooth two exStream :=
  ⟨by intro e he; simp only [two, List.mem_cons, List.not_mem_nil, or_false] at he; rcases he with rfl | rfl <;> exact ⟨_, by simp, rfl⟩, rfl, rfl⟩
theorem one_smooth : Smooth one exStream := ⟨by intro e he; simp only [one, List.mem_singleton] at he; exact ⟨_, by decide, he⟩, rfl, rfl⟩

theorem exStream_markers : Markers (bits [0x55#8]) (bits exStream) (8 * 1) 0 [1, 17] := by
  refine .cons ⟨by omega, List.prefix_iff_eq_take.2 (by decide), ?_⟩ (.cons ⟨by decide, List.prefix_iff_eq_take.2 (by decide), fun j h1 h2 => ?_⟩ (.none fun i hi hoc => ?_))
  · intro j _ hj hoc
    have : j = 0 := by omega
    subst this
    exact absurd (List.prefix_iff_eq_take.1 hoc) (by decide)
  · have : (bits [0x55#8]).length = 8 := by decide
    omega
  · have hl := hoc.length_le
    rw [List.length_drop] at hl
    have h1 : (bits [0x55#8]).length = 8 := by decide
    have h2 : (bits exStream).length = 40 := by decide
    omega

example := C26_chunking two one exStream [0x55#8] 1 two_smooth one_smooth (by simp)
example (ps : List Nat) (h : Markers (bits [0x55#8]) (bits exStream) (8 * 1) 0 ps) : ps = [1, 17] := C26_positions_unique _ _ _ _ _ _ h exStream_markers
example (items : List (Except Error Block)) (e : Option Sync.Iter) (h : Collects Sync.next (Sync.iter two [0x55#8] 1) items e) :=
  C27_block_bits two exStream [0x55#8] 1 two_smooth (by simp) _ exStream_markers items e h 1 17 rfl (by decide)
example := C28_lockstep two exStream [0x55#8] 1 two_smooth (by simp) [false] [false, false, false, false, false, false, false] [[0x55#8], [0x55#8]] (by simp) (by decide)
  (fun _ => by cases exStream_markers with | cons h _ => exact h)
/-- Blocks of four bytes: the first one is cut short, and shifted. -/
theorem markers4 : Markers (bits [0x55#8]) (bits exStream) (8 * 4) 0 [1] := by
  cases exStream_markers with
  | cons h _ => refine .cons h (.none fun i hi hoc => ?_)
                have hl := hoc.length_le
                rw [List.length_drop] at hl
                have h1 : (bits [0x55#8]).length = 8 := by decide
                have h2 : (bits exStream).length = 40 := by decide
                omega

example : ∃ items e, Collects Sync.next (Sync.iter two [0x55#8] 4) items e ∧ items = [.error (.io .unexpectedEof)] := by
  obtain ⟨items, s, _, h, _⟩ := C26_first_markers two exStream [0x55#8] 4 two_smooth (by simp)
  obtain ⟨h1, _, h2⟩ := C29_partial two exStream [0x55#8] 4 two_smooth (by simp) _ markers4 items _ h 0 1 rfl (by decide)
  refine ⟨items, _, h, ?_⟩
  match items, h1, h2 (by decide) with
  | [x], _, hx => simpa using hx

/-- Blocks of two bytes behind markers at bytes 0 and 3, the second cut: zeros are made up for what is missing. -/
def cut : Reader := ⟨[.data [0x55#8, 1#8], .data [2#8, 0x55#8, 3#8]], .eof⟩
theorem cut_smooth : Smooth cut [0x55#8, 1#8, 2#8, 0x55#8, 3#8] :=
  ⟨by intro e he; simp only [cut, List.mem_cons, List.not_mem_nil, or_false] at he; rcases he with rfl | rfl <;> exact ⟨_, by simp, rfl⟩, rfl, rfl⟩

theorem cut_markers : Markers (bits [0x55#8]) (bits [0x55#8, 1#8, 2#8, 0x55#8, 3#8]) (8 * 2) 0 [0, 24] := by
  refine .cons ⟨by omega, List.prefix_iff_eq_take.2 (by decide), fun j _ h => by omega⟩ (.cons ⟨by decide, List.prefix_iff_eq_take.2 (by decide), fun j h1 h2 => ?_⟩ (.none fun i hi hoc => ?_))
  · have : (bits [0x55#8]).length = 8 := by decide
    omega
  · have hl := hoc.length_le
    rw [List.length_drop] at hl
    have h1 : (bits [0x55#8]).length = 8 := by decide
    have h2 : (bits [0x55#8, 1#8, 2#8, 0x55#8, 3#8]).length = 40 := by decide
    omega

example : ∃ items e b, Collects Sync.next (Sync.iter cut [0x55#8] 2) items e ∧ items.length = 2 ∧ items[1]? = some (.ok b) ∧ b.data = [3#8, 0#8] := by
  obtain ⟨items, s, _, h, _⟩ := C26_first_markers cut _ [0x55#8] 2 cut_smooth (by simp)
  obtain ⟨h1, h2, _⟩ := C29_partial cut _ [0x55#8] 2 cut_smooth (by simp) _ cut_markers items _ h 1 24 rfl (by decide)
  obtain ⟨b, hb, hd⟩ := h2 (by decide)
  exact ⟨items, _, b, h, h1, hb, by rw [hd]; decide⟩

/-- A run after which the stream is at its end: it did not panic, nor could any call before. -/
example : ∃ items e, Collects Sync.next (Sync.iter cut [0x55#8] 2) items e ∧ e ≠ none := by
  obtain ⟨items, s, _, h, _⟩ := C26_first_markers cut _ [0x55#8] 2 cut_smooth (by simp)
  exact ⟨items, _, h, C30_no_panic _ _ _ _ _ h⟩
example : Sync.next (Sync.iter cut [0x55#8] 2) ≠ .panic := C30_no_panic_step cut [0x55#8] 2 _ (fun _ h _ => h)

/-- Interrupted once in the marker, and the stream then reports the same error for ever. -/
example (items : List (Except Error Block)) (e : Option Sync.Iter) :
    ¬ Collects Sync.next (Sync.iter ⟨[.data [0x55#8], .err .interrupted, .data [7#8]], .fail 5⟩ [0x55#8] 1) items e :=
  C58_partial _ _ _ ⟨by intro e he; simp only [List.mem_cons, List.not_mem_nil, or_false] at he; rcases he with rfl | rfl | rfl <;> simp, by simp⟩ items e

/-! ## C28, C52 with gaps -/

/-- Two blocks, of which the second follows six foreign bits and the stream ends with two. -/
example := C28_gaps two exStream [0x55#8] 1 two_smooth (by simp) [([false], [0x55#8]), ([], [0x55#8])] [false, false, false, false, false, false, false] (by simp) (by decide)
  (by
    intro before u after e
    have hm := exStream_markers
    match before, e with
    | [], e => cases e; cases hm with | cons h _ => exact h
    | [_], e => cases e; cases hm with | cons _ h => cases h with | cons h _ => exact h
    | _ :: _ :: bs, e => simp at e)
  (by
    intro i hi hoc
    have hl := hoc.length_le
    rw [List.length_drop] at hl
    have h1 : (bits [0x55#8]).length = 8 := by decide
    have h2 : (bits exStream).length = 40 := by decide
    have h3 : (unitBits [0x55#8] [([false], [0x55#8]), ([], [0x55#8])]).length = 33 := by decide
    omega)

example (b : Build) := C52_until b false _ _ 255 _ [] (Roll.smooth Roll.wholeStream (Roll.ne _ (by simp))) (Roll.carries _ (by decide +kernel))

/-! ## C58 -/

/-- Interrupted inside the first marker and inside the second block. -/
def interrupted : Reader := ⟨[.data [0x55#8], .err .interrupted, .data [0xaa#8, 7#8, 0x55#8, 0xaa#8], .err .interrupted, .data [9#8]], .eof⟩
/-- Interrupted inside the second block only. -/
def inBlock : Reader := ⟨[.data [0x55#8, 0xaa#8, 7#8, 0x55#8, 0xaa#8], .err .interrupted, .data [9#8]], .eof⟩
def sixBytes : List U8 := [0x55#8, 0xaa#8, 7#8, 0x55#8, 0xaa#8, 9#8]
theorem interrupted_delivers : interrupted.Delivers sixBytes := by
  refine ⟨?_, rfl, rfl⟩
  intro e he
  simp only [interrupted, List.mem_cons, List.not_mem_nil, or_false] at he
  rcases he with rfl | rfl | rfl | rfl | rfl
  · exact Or.inl ⟨_, by simp, rfl⟩
  · exact Or.inr rfl
  · exact Or.inl ⟨_, by simp, rfl⟩
  · exact Or.inr rfl
  · exact Or.inl ⟨_, by simp, rfl⟩
theorem inBlock_delivers : inBlock.Delivers sixBytes := by
  refine ⟨?_, rfl, rfl⟩
  intro e he
  simp only [inBlock, List.mem_cons, List.not_mem_nil, or_false] at he
  rcases he with rfl | rfl | rfl
  · exact Or.inl ⟨_, by simp, rfl⟩
  · exact Or.inr rfl
  · exact Or.inl ⟨_, by simp, rfl⟩
theorem six_smooth : Smooth ⟨[.data sixBytes], .eof⟩ sixBytes := ⟨by intro e he; simp only [List.mem_singleton] at he; exact ⟨_, by decide, he⟩, rfl, rfl⟩
theorem six_markers : Markers (bits [0x55#8, 0xaa#8]) (bits sixBytes) (8 * 1) 0 [0, 24] := by
  refine .cons ⟨by omega, ⟨bits [7#8, 0x55#8, 0xaa#8, 9#8], rfl⟩, by omega⟩ (.cons ⟨by simp, ⟨bits [9#8], rfl⟩, by simp; omega⟩ (.none ?_))
  exact Sync.no_occurs_of_short (Sync.bits_ne_nil (by simp)) (by simp [sixBytes])

example := C58_exact interrupted sixBytes [0x55#8, 0xaa#8] 1 interrupted_delivers (by simp)
example (items items' : List (Except Error Block)) (e e' : Option Sync.Iter) (h : Collects Sync.next (Sync.iter interrupted [0x55#8, 0xaa#8] 1) items e)
    (h' : Collects Sync.next (Sync.iter ⟨[.data sixBytes], .eof⟩ [0x55#8, 0xaa#8] 1) items' e') :=
  C58_no_silent_loss interrupted _ sixBytes _ 1 interrupted_delivers six_smooth (by simp) items items' e e' h h'
example := C58_inside_blocks inBlock _ sixBytes [0x55#8, 0xaa#8] 1 inBlock_delivers six_smooth (by simp) _ six_markers (by
  intro n hn
  have : n = 5 := by simpa [inBlock, interruptsFrom] using hn
  subst this
  exact ⟨24, by simp, by decide, by decide⟩)
example (ps qs : List (Option Nat)) (h : Spec.Visits (bits [0x55#8, 0xaa#8]) (bits sixBytes) (8 * 1) (interruptsFrom 0 interrupted.script) 0 ps)
    (k : Spec.Visits (bits [0x55#8, 0xaa#8]) (bits sixBytes) (8 * 1) (interruptsFrom 0 interrupted.script) 0 qs) : ps = qs := C58_visits_unique _ _ _ _ _ _ _ h k

/-! ## C88: a read error between two blocks (`c88_reader'`) -/

example : ∃ items, items.length = 3 ∧ Sound (bits [0x55#8]) (bits [0x55#8, 1#8, 0x55#8, 2#8]) (endsFrom .eof 0 c88_reader'.script) (8 * 1) 0 true items ∧
    ∀ b, .ok b ∈ items → b.data.length = 1 := by
  obtain ⟨t, ht⟩ := c88_run'
  exact ⟨_, rfl, C88_partial c88_reader' [0x55#8] 1 (by simp) _ t ht, fun b hb => C88_sizes c88_reader' [0x55#8] 1 (by simp) _ t ht b hb⟩

example : ∃ (items : List (Except Error Block)) (e : Option Sync.Iter) (b : Block), Collects Sync.next (Sync.iter ⟨[.data [0x55#8, 1#8, 0x55#8, 2#8]], .eof⟩ [0x55#8] 1) items e ∧
    items[0]? = some (.ok b) ∧ b.data = [1#8] := by
  obtain ⟨t, ht⟩ := c88_run'
  have hs : Smooth ⟨[.data [0x55#8, 1#8, 0x55#8, 2#8]], .eof⟩ (evBytes c88_reader'.script) :=
    ⟨by intro e he; simp only [List.mem_singleton] at he; exact ⟨_, by simp, he⟩, rfl, rfl⟩
  obtain ⟨items', s, _, h', _⟩ := C26_first_markers _ _ [0x55#8] 1 hs (by simp)
  obtain ⟨b, b', hb, hb', hd⟩ := C88_until_error c88_reader' _ [0x55#8] 1 (by simp) (by decide) hs _ items' t _ ht h' 0
    (fun j hj => by have : j = 0 := by omega
                    subst this; exact ⟨_, rfl⟩)
  have hb : (⟨0, ⟨2, 0#8⟩, [1#8]⟩ : Block) = b := Except.ok.inj (Option.some.inj hb)
  exact ⟨items', _, b', h', hb', by rw [← hd, ← hb]⟩

/-- The run to its end. -/
example : ∃ items e, Collects Sync.next (Sync.iter cut [0x55#8] 2) items (some e) ∧ Sound (bits [0x55#8]) (bits (evBytes cut.script)) (endsFrom .eof 0 cut.script) (8 * 2) 0 true items ∧
    Spec.Heard [0x55#8] 2 .unexpectedEof [0x55#8, 1#8, 2#8, 0x55#8, 3#8] 0 [] 0 0 (items.map some ++ [none]) := by
  obtain ⟨items, s, _, h, _⟩ := C26_first_markers cut _ [0x55#8] 2 cut_smooth (by simp)
  exact ⟨items, s, h, C88_collected cut [0x55#8] 2 (by simp) items _ h, C88_exact_run cut [0x55#8] 2 (by simp) items s h⟩

/-- Five calls, whatever happens, and they are determined. -/
example : ∃ rs t, rs.length = 5 ∧ Calls Sync.next (Sync.iter c88_again [0x55#8] 1) rs t ∧
    ∀ rs', rs'.length = 5 → Spec.Heard [0x55#8] 1 .unexpectedEof [0x55#8, 1#8, 0x55#8, 2#8] 0 [(2, .unexpectedEof)] 0 0 rs' → rs' = rs := by
  obtain ⟨rs, t, h1, h2⟩ := C88_returns c88_again [0x55#8] 1 (by simp) 5
  exact ⟨rs, t, h1, h2, fun rs' hl h => C88_determined h (C88_exact c88_again [0x55#8] 1 (by simp) rs t h2) (hl.trans h1.symm)⟩

/-! ## C103 -/

example (b : Build) : ∃ items e, items.length = 2 ∧ Collects (Sync.Hits.next b) (Sync.Hits.start two [0x55#8] 1) items e := by
  obtain ⟨items, s, ps, h, hm, hl, _⟩ := C26_first_markers two exStream [0x55#8] 1 two_smooth (by simp)
  have := C26_positions_unique _ _ _ _ _ _ hm exStream_markers
  subst this
  obtain ⟨e, he, _⟩ := C103_partial b two [0x55#8] 1 items _ h (by rw [hl]; decide)
  exact ⟨items, e, hl, he⟩
example (b : Build) (hb : b.overflowChecks = false) : ∃ items e, items.length = 2 ∧ Collects (Sync.Hits.next b) (Sync.Hits.start two [0x55#8] 1) items e := by
  obtain ⟨items, s, ps, h, hm, hl, _⟩ := C26_first_markers two exStream [0x55#8] 1 two_smooth (by simp)
  have := C26_positions_unique _ _ _ _ _ _ hm exStream_markers
  subst this
  obtain ⟨e, he, _⟩ := C103_unchecked b hb two [0x55#8] 1 items _ h
  exact ⟨items, e, hl, he⟩

/-! ## C61, C68, C104 -/

example : ∃ items e, Collects Sync.next (Sync.iter two [0x55#8] 1) items e ∧ items.length = 2 ∧ ∀ b, .ok b ∈ items → b.data.length = 1 := by
  obtain ⟨items, s, ps, h, hm, hl, _⟩ := C26_first_markers two exStream [0x55#8] 1 two_smooth (by simp)
  have := C26_positions_unique _ _ _ _ _ _ hm exStream_markers
  subst this
  exact ⟨items, _, h, hl, C61_blocks _ _ _ _ _ h⟩

/-- The stream goes on with bytes that look like a marker and an error. -/
example (items : List (Except Error Block)) (e : Option Sync.Iter) (h : Collects Sync.next (Sync.iter two [0x55#8] 1) items e) :=
  C104_all two.script [.data [0x55#8], .err (.other 5)] .eof exStream [0x55#8] 1 two_smooth (by simp) _ exStream_markers (by decide) items e h
example (items : List (Except Error Block)) (e : Option Sync.Iter) (h : Collects Sync.next (Sync.iter two [0x55#8] 1) items e) :=
  C68_synchronize_any two.script [.data [0x55#8], .err (.other 5)] .eof exStream [0x55#8] 1 two_smooth (by simp) items e h

/-- It goes on with one byte more. -/
theorem longer_smooth : Smooth ⟨[.data exStream, .data [0x55#8]], .eof⟩ (exStream ++ [0x55#8]) :=
  ⟨by intro e he; simp only [List.mem_cons, List.not_mem_nil, or_false] at he; rcases he with rfl | rfl <;> exact ⟨_, by decide, rfl⟩, rfl, rfl⟩
example (items items' : List (Except Error Block)) (e e' : Option Sync.Iter) (h : Collects Sync.next (Sync.iter two [0x55#8] 1) items e)
    (h' : Collects Sync.next (Sync.iter ⟨[.data exStream, .data [0x55#8]], .eof⟩ [0x55#8] 1) items' e') :=
  C68_synchronize_prefix two _ exStream [0x55#8] [0x55#8] 1 two_smooth longer_smooth (by simp) items items' e e' h h'
example (items items' : List (Except Error Block)) (e e' : Option Sync.Iter) (h : Collects Sync.next (Sync.iter two [0x55#8] 1) items e)
    (h' : Collects Sync.next (Sync.iter ⟨[.data exStream, .data [0x55#8]], .eof⟩ [0x55#8] 1) items' e') :=
  C68_synchronize two _ exStream [0x55#8] [0x55#8] 1 two_smooth longer_smooth (by simp) items items' e e' h h' _ exStream_markers 1 17 rfl (by decide)

/-- A packet that has arrived is handed over before the next one is complete. -/
example (more : List Ev) (tail : Tail) : ∃ p s, Takes PacketDecoder.next (PacketDecoder.new ⟨[.data [0, 5, 0xc0, 7], .data [0, 0, 0xab, 0x08, 0x01, 0xc0]] ++ more, tail⟩) [.ok p] s ∧
    p.data = [0, 5, 0xc0, 7, 0, 0, 0xab] :=
  ⟨_, _, C68_decode_packets [.data [0, 5, 0xc0, 7], .data [0, 0, 0xab, 0x08, 0x01, 0xc0]] more tail _ _ (.cons rfl .nil), rfl⟩
example (more : List Ev) (tail : Tail) (items all : List (Except Error Packet)) (e e' : Option PacketDecoder)
    (h : Collects PacketDecoder.next (PacketDecoder.new ⟨[.data [0, 5, 0xc0, 7], .data [0, 0, 0xab, 0x08, 0x01, 0xc0]], .eof⟩) items e)
    (h' : Collects PacketDecoder.next (PacketDecoder.new ⟨[.data [0, 5, 0xc0, 7], .data [0, 0, 0xab, 0x08, 0x01, 0xc0]] ++ more, tail⟩) all e') :=
  C68_decode_packets_prefix _ more tail items all e e' h h'

end Ccsds.Cases.Sync
