import Verif.Props.ReedSolomon
import Verif.Props.RsStage
import Verif.Props.Abandon
import Verif.Props.Streaming
import Verif.Props.StreamingPipeline
import Verif.Props.Sizes
import Verif.Props.CcsdsCode
/-!
# Concrete cases: Reed–Solomon and its stage

Each theorem of `Props/ReedSolomon`, `Props/RsStage`, `Props/Abandon`, `Props/RsCode` and `Props/CcsdsCode` that has hypotheses, applied to concrete data that meets them. Where
`example` is followed directly by `:=`, its statement is that of the theorem at these arguments.
-/
namespace Ccsds.Cases.Rs
open Spec RS

theorem bounded : Bounded (bddCodec ccsdsCode) ccsdsCode := C113_distance.2

/-! ## C37–C41 -/

/-- 300 bytes with 210 bytes of virtual fill, interleave 2, the parity kept. -/
example (block : List U8) (h : block.length = 300) : perform idCodec { (Config.new 2).withVirtualFill 210 with removeParity := false } block = .ret (.ok (.ok, block)) :=
  C37_inverse _ block (by decide) rfl rfl (by rw [h]; rfl)

example (d : List U8) (h : d.length = 1020) : ∃ i r, perform (bddCodec ccsdsCode) (Config.new 4) d = .ret (.ok (i, r)) :=
  C38_no_panic _ _ bounded (Config.new 4) d rfl (by decide) (by decide) (by rw [h]; rfl)
example (k : Codec) : perform k (Config.new 0) [] = .panic := C38_interleave_zero k (Config.new 0) rfl rfl

theorem word (I : Nat) (v : U8) (n i : Nat) (hn : n = 255 * I) (hi : i < I) : codeword I (List.replicate n v) i = List.replicate 255 v := by
  subst hn
  refine List.ext_getElem? fun j => ?_
  unfold codeword
  rw [List.getElem?_map, List.getElem?_replicate]
  by_cases hj : j < 255
  · rw [List.getElem?_range hj, if_pos hj, Option.map_some, List.getD_eq_getElem?_getD, List.getElem?_replicate,
      if_pos (by have : j * I + I ≤ 255 * I := by rw [← Nat.succ_mul]; exact Nat.mul_le_mul_right _ hj
                 omega)]
    rfl
  · rw [if_neg hj, List.getElem?_eq_none (by simpa using hj)]
    rfl

/-- A block of equal bytes, interleave 2: each of its two words is a code word (C113). -/
theorem equal (v : U8) : perform (bddCodec ccsdsCode) (Config.new 2) (List.replicate 510 v) = .ret (.ok (.ok, (List.replicate 510 v).take 446)) := by
  have h := C41_partial (bddCodec ccsdsCode) _ bounded (Config.new 2) (List.replicate 510 v) rfl (by decide) (by decide) rfl (by rw [List.length_replicate]; rfl)
    (by intro i hi
        rw [show (Config.new 2).virtualFill = 0 from rfl, List.replicate_zero, List.nil_append]
        rw [word _ v 510 i rfl hi]
        exact C113_constant v)
  rw [List.length_replicate] at h
  exact h

example (v : U8) := C39_sound (bddCodec ccsdsCode) _ bounded (Config.new 2) (List.replicate 510 v) rfl (by decide) (by rw [List.length_replicate]; rfl) _ _ (equal v) (.inl rfl)

/-- For a code with one word only a block far from it cannot be corrected, and what is handed on is not what came. -/
def zeroCode (w : List U8) : Prop := w = List.replicate 255 0#8
theorem zero_bounded : Bounded (bddCodec zeroCode) zeroCode := by
  apply bddCodec_bounded
  · rintro c rfl; exact List.length_replicate
  · rintro c c' rfl rfl hne; exact absurd rfl hne
theorem far : dist (List.replicate 255 1#8) (List.replicate 255 0#8) = 255 := by decide +kernel
example : perform (bddCodec zeroCode) (Config.new 2) (List.replicate 510 1#8) ≠ .ret (.ok (.uncorrectable, List.replicate 510 1#8)) :=
  C40_uncorrectable_differs (bddCodec zeroCode) _ zero_bounded (Config.new 2) (List.replicate 510 1#8) rfl (by decide) (by decide) (by rw [List.length_replicate]; rfl) rfl
    ⟨0, by decide, by
      rintro w rfl
      rw [show (Config.new 2).virtualFill = 0 from rfl, List.replicate_zero, List.nil_append, word _ 1#8 510 0 rfl (by decide), far]
      decide⟩

/-! ## C44, C45 -/

/-- A frame of equal bytes. -/
def ones : Frame := ⟨⟨0, 0x10#16, 0, 0x0101#32⟩, 0, none, List.replicate 510 1#8⟩
def fill : Frame := ⟨⟨1, 4, 63, 0⟩, 0, none, [1, 2, 3]⟩

example (k : Codec) (o : Opts) : job k o fill = .ret fill := C44_fill k o fill rfl
example (k : Codec) (o : Opts) := C44_frame k o ones (by decide)
example (o : Opts) := C44_panic_any (bddCodec ccsdsCode) _ bounded o ones (by decide)

theorem ones_job : job (bddCodec ccsdsCode) ⟨2, 0, true, true⟩ ones = .ret { ones with integrity := some .ok, data := (List.replicate 510 1#8).take 446 } := by
  have h := (C44_frame (bddCodec ccsdsCode) ⟨2, 0, true, true⟩ ones (by decide)).1 _ _ (equal 1#8)
  obtain ⟨f', h1, h2, h3, h4, h5, _⟩ := h
  have h5 := h5 (.inl rfl)
  rw [h1]
  obtain ⟨a, b, c, d⟩ := f'
  change a = _ at h2
  change b = _ at h3
  change c = _ at h4
  change d = _ at h5
  rw [h2, h3, h4, h5]

example : VCDUHeader.decode ((List.replicate 510 1#8).take 446) = some ones.header :=
  C45_partial (bddCodec ccsdsCode) _ bounded ⟨2, 0, true, true⟩ ones _ (by decide) (by decide +kernel) ones_job rfl (by decide +kernel)

/-- The same block with the first byte damaged: bits of the spacecraft identifier. The data are repaired, the header still has the wrong identifier. -/
def hurt : List U8 := 5#8 :: List.replicate 509 1#8
def hurtFrame : Frame := ⟨⟨0, 0x50#16, 0, 0x0101#32⟩, 0, none, hurt⟩

example : ∃ f', job (bddCodec ccsdsCode) ⟨2, 0, true, true⟩ hurtFrame = .ret f' ∧ f'.data = (List.replicate 510 1#8).take 446 ∧ f'.header = hurtFrame.header ∧
    VCDUHeader.decode f'.data ≠ some f'.header := by
  have hl : (List.replicate 510 1#8).length = 510 := List.length_replicate
  obtain ⟨f', h1, h2, h3, h4⟩ := (C45_exact (bddCodec ccsdsCode) _ bounded ⟨2, 0, true, true⟩ hurtFrame (List.replicate 510 1#8) (by decide +kernel) (by decide) (by decide)
    (by rw [hl]; rfl) (by rw [hl]; decide +kernel)
    (by
      intro i hi
      rw [show (⟨2, 0, true, true⟩ : Opts).virtualFill = 0 from rfl, List.replicate_zero, List.nil_append, word _ 1#8 510 i rfl hi]
      exact C113_constant 1#8)
    (by
      intro i hi
      have hi : i < 2 := hi
      match i, hi with
      | 0, _ => decide +kernel
      | 1, _ => decide +kernel) rfl).2 (by decide)
  refine ⟨f', h1, by rw [h2, hl]; rfl, h3, ?_⟩
  rw [Ne, h4]
  decide +kernel

/-! ## C42, C43, C69, C72, C73: the stage with one worker and a buffer of two, and two frames -/

open RsStage

theorem reach_of {p : Params} {job : Frame → Outcome Frame} {input : List Frame} {n : Nat} {t : State} (h : Steps p job input n State.init t) : Reach p job input t := by
  generalize hs : State.init = s at h
  induction h with
  | zero => exact hs ▸ .init
  | succ _ k ih => exact (ih hs).step k

/-- The stage with one worker and a buffer of one, and two frames, finishes from its start, and then nothing more can happen. -/
theorem finished (f g : Frame) : ∃ s, Reach ⟨1, 1⟩ Outcome.ret [f, g] s ∧ s.cons = .ended ∧ ∀ t, ¬ Step ⟨1, 1⟩ Outcome.ret [f, g] s t := by
  have key : ∀ n, (∃ s, Reach ⟨1, 1⟩ Outcome.ret [f, g] s ∧ s.cons = .ended ∧ ∀ t, ¬ Step ⟨1, 1⟩ Outcome.ret [f, g] s t) ∨
      ∃ s, Steps ⟨1, 1⟩ Outcome.ret [f, g] n State.init s ∧ s.cons ≠ .gone := by
    intro n
    induction n with
    | zero => exact .inr ⟨_, .zero _, by decide⟩
    | succ n ih =>
      rcases ih with h | ⟨s, h, hc⟩
      · exact .inl h
      · have hr := reach_of h
        have ha : s.aborted = none := by
          cases e : s.aborted with
          | none => rfl
          | some a => obtain ⟨_, _, _, _, h⟩ := C42_abort _ _ _ s a hr e; cases h
        rcases C43_no_deadlock ⟨1, 1⟩ (by decide) Outcome.ret [f, g] s hr ha with ⟨t, ht, hg⟩ | hf
        · exact .inr ⟨t, .succ h ht, fun e => hc (hg e)⟩
        · obtain ⟨f1, f2, f3, f4, f5⟩ := hf
          refine .inl ⟨s, hr, ?_, fun t ht => ?_⟩
          · cases e : s.cons with
            | reading => exact absurd e f5
            | ended => rfl
            | gone => exact absurd e hc
          · cases ht <;> simp_all
  rcases key (9 * 2 + 4 + 1) with h | ⟨s, h, _⟩
  · exact h
  · exact absurd (C43_finite _ _ _ _ s h) (by simp)

example (f g : Frame) : ∃ s, Reach ⟨1, 1⟩ Outcome.ret [f, g] s ∧ s.cons = .ended ∧ s.got.map Outcome.ret = [Outcome.ret f, Outcome.ret g] ∧ s.running.length ≤ 1 ∧
    s.next ≤ s.got.length + 5 := by
  obtain ⟨s, h, he, _⟩ := finished f g
  exact ⟨s, h, he, C42_none _ _ _ s h he, C69_workers _ _ _ s h, (C69_readahead _ _ _ s h (by rw [he]; decide)).1⟩
example (f g : Frame) : ∃ s, Reach ⟨1, 1⟩ Outcome.ret [f, g] s ∧ s.cons = .ended ∧ s.got.map Outcome.ret = [Outcome.ret f, Outcome.ret g] := by
  obtain ⟨s, h, he, hs⟩ := finished f g
  obtain ⟨h1, h2⟩ := C42_complete ⟨1, 1⟩ (by decide) Outcome.ret [f, g] s h (by simp) hs (by rw [he]; decide)
  exact ⟨s, h, h1, h2⟩
example (f g : Frame) : ∃ s, Reach ⟨1, 1⟩ Outcome.ret [f, g] s ∧ s.next = 2 := by
  obtain ⟨s, h, he, hs⟩ := finished f g
  exact ⟨s, h, (C72_takes_all ⟨1, 1⟩ (by decide) Outcome.ret [f, g] (by simp) s h hs).1⟩
example (f g : Frame) : ∃ s, Reach ⟨1, 1⟩ Outcome.ret [f, g] s ∧ s.aborted = none ∧ ((s.sub = .exited ∧ s.queued = [] ∧ s.running = [] ∧ s.disp = .exited) ∨
    (∃ g, s.disp = .sendOut g ∧ s.cons ≠ .gone ∧ s.outCh.length = 1)) := by
  obtain ⟨s, h, he, hs⟩ := finished f g
  have ha := (C72_takes_all ⟨1, 1⟩ (by decide) Outcome.ret [f, g] (by simp) s h hs).2.2
  exact ⟨s, h, ha, C43_backpressure ⟨1, 1⟩ (by decide) Outcome.ret [f, g] s h ha (fun t ht => absurd ht (hs t))⟩
example (f g : Frame) : ∃ s, Reach ⟨1, 1⟩ Outcome.ret [f, g] s ∧ s.got.map Outcome.ret = ([f, g].take s.next).map Outcome.ret := by
  obtain ⟨s, h, he, hs⟩ := finished f g
  exact ⟨s, h, C69_delivers ⟨1, 1⟩ (by decide) Outcome.ret [f, g] s h (by simp) (by rw [he]; decide) (fun t ht => absurd ht (hs t))⟩

/-- The first job panics: the process aborts, for that reason. -/
def abortedState : State := { State.init with next := 1, sub := .sending 0, queued := [], running := [0], aborted := some (.jobPanic 0) }
theorem aborts (f g : Frame) : Reach ⟨1, 1⟩ (fun _ => .panic) [f, g] abortedState := by
  refine .step (.step (.step .init (.pull _ rfl rfl (by simp [State.init]))) (.start _ 0 rfl (by simp [State.init]) (by decide))) ?_
  have h := Step.jobPanics (p := ⟨1, 1⟩) (job := fun _ => .panic) (input := [f, g]) { State.init with next := 1, sub := .sending 0, queued := [], running := [0] } 0 f rfl (by simp) rfl rfl
  exact h
example (f g : Frame) := C42_abort ⟨1, 1⟩ (fun _ => .panic) [f, g] abortedState _ (aborts f g) rfl
example (f g : Frame) : abortedState.got.map Outcome.ret <+: [f, g].map fun _ => Outcome.panic := C42_prefix _ _ _ _ (aborts f g)

/-- Two frames of equal bytes (of which one is a fill frame). -/
example := C42_rs ⟨1, 1⟩ (bddCodec ccsdsCode) _ bounded ⟨2, 0, true, true⟩ [ones, fill] (by decide) (by decide)
  (by intro f hf hv
      simp only [List.mem_cons, List.not_mem_nil, or_false] at hf
      rcases hf with rfl | rfl
      · have h : ones.data.length = 510 := by unfold ones; exact List.length_replicate
        rw [h]; decide
      · exact absurd rfl hv)

/-- The run of `AbandonEx`, where the frame counter's rollover ends the stream. -/
example : ∃ s, Pipeline.Runs ⟨true⟩ (bddCodec repCode) AbandonEx.cfg AbandonEx.reader s ∧ s.cons = .ended ∧ ∃ frames ended, Pipeline.Outputs ⟨true⟩ AbandonEx.cfg AbandonEx.reader frames ended ∧
    s.got.length = frames.length := by
  obtain ⟨s, h1, h2, _⟩ := AbandonEx.hidden
  obtain ⟨frames, ended, h3, ⟨o, p, _, h4⟩, _⟩ := C73_partial ⟨true⟩ (bddCodec repCode) AbandonEx.cfg AbandonEx.reader s h1 h2
  exact ⟨s, h1, h2, frames, ended, h3, by have := congrArg List.length h4; simpa using this⟩
example : ∃ s, Pipeline.Runs ⟨true⟩ (bddCodec repCode) AbandonEx.cfg AbandonEx.reader s ∧ s.got.length = 1 ∧ ∀ f ∈ s.got, f.data.length = 0 ∨ f.data.length = 32 := by
  obtain ⟨s, h1, h2, h3⟩ := AbandonEx.hidden
  refine ⟨s, h1, h3, fun f hf => ?_⟩
  have := C61_rs ⟨true⟩ (bddCodec repCode) AbandonEx.cfg _ _ rfl AbandonEx.reader s h1 f hf
  split at this
  · exact .inl this
  · exact .inr this

/-! ## C68 with frames and packets -/

example (b : Build) (more : List Block) : ∃ items s, Takes (FrameDecoder.next b) (FrameDecoder.new (exPipeFrames.map blk ++ more)) items s ∧ items.length ≤ 1 :=
  ⟨[], _, C68_frame_decoder b (exPipeFrames.map blk) more [] _ .nil, by decide⟩

/-! ## C71, C113 -/

example : ∃ (F : Type) (_ : Field F) (e : U8 ≃ F) (α : F), ∀ c c', rsCode e (α ^ 11) 112 c → rsCode e (α ^ 11) 112 c' → c ≠ c' → 33 ≤ dist c c' := by
  obtain ⟨F, _, _, e, α, _, hα⟩ := C71_field
  exact ⟨F, _, e, α, (C71_ccsds e α hα).1⟩
example : ∃ (F : Type) (_ : Field F) (e : U8 ≃ F) (β : F), ∀ payload : List U8, payload.length = 882 →
    ∃! tx : List U8, 10 + tx.length = 255 * 4 ∧ payload <+: tx ∧ ∀ i, i < 4 → rsCode e β 112 (codeword 4 (List.replicate 10 0#8 ++ tx) i) := by
  obtain ⟨F, _, _, e, β, _, hβ⟩ := C71_field
  exact ⟨F, _, e, β, fun payload h => C71_encode e β hβ 112 4 10 payload (by decide) (by rw [h])⟩
example (u v : U8) : ccsdsCode (List.zipWith (· ^^^ ·) (List.replicate 255 u) (List.replicate 255 v)) := C113_linear _ _ (C113_constant u) (C113_constant v)
example (v : U8) : ccsdsCode (List.zipWith (· ^^^ ·) UnitTests.fixtureMsg (List.replicate 255 v)) := C113_linear _ _ C113_fixture (C113_constant v)
example (payload : List U8) (h : payload.length = 892) := C113_recovers (bddCodec ccsdsCode) bounded (Config.new 4) rfl (by decide) rfl rfl payload (by rw [h]; rfl)

end Ccsds.Cases.Rs
