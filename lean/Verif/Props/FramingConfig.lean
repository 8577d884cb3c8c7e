import Verif.Model.Commands
import Verif.Props.Framing
/-!
# C65: the configuration file of `ccsds framing`
-/
namespace Ccsds
open Cmd Spec Framing

/-! ## Specification -/

/-- The frames that the configuration `c` (with the other arguments in `a`) describes: blocks of `length` bytes, plus 32 check symbols for every
interleaved codeword, behind the given marker (the standard one if none is given), derandomized if asked for, decoded to frames, checked and corrected.
(With Reed-Solomon a panic of the frame iterator is not seen by the consumer, so that `raw` may also be the frames before such a panic: C73.) -/
inductive ConfiguredFrames (b : Build) (k : Codec) (a : Args) (c : FramingConfig) (workers : Nat) (r : Reader) : List Frame → Prop where
  | plain {frames : List Frame} {e : Pipeline.State} : c.rs = none →
      Pipeline.Yields b c.pn ⟨Sync.iter r (c.asm.getD Sync.ASM) c.length, []⟩ frames (some e) → ConfiguredFrames b k a c workers r frames
  | rs {raw : List Frame} {e : Option Pipeline.State} {il vf : Nat} {i : U8} {st : RsStage.State} : c.rs = some (il, vf) → i.toNat = il →
      Pipeline.Yields b c.pn ⟨Sync.iter r (c.asm.getD Sync.ASM) (c.length + 32 * il), []⟩ raw e →
      RsStage.Reach ⟨a.buffersize, workers⟩ (RS.job k ⟨i, vf, a.detect || a.correct, a.correct⟩) raw st → st.cons = .ended →
      ConfiguredFrames b k a c workers r st.got

/-- Full statement: `ccsds framing --config` reports and writes the frames that the configuration describes. (The Reed-Solomon options are taken from
the file only.) -/
def C65_full : Prop :=
  ∀ (b : Build) (k : Codec) (a : Args) (c : FramingConfig) (workers : Nat) (r : Reader) (s : Framing.Summary) (w : List (List U8)),
    a.reedSolomon = none → FramingRun b k a (some c) workers r (some (s, w)) →
    ∃ frames, ConfiguredFrames b k a c workers r frames ∧ Finishes { a with length := c.length } frames s w

theorem finishes_congr {a a' : Args} {fs : List Frame} {s : Framing.Summary} {w : List (List U8)} (h1 : a.length = a'.length) (h2 : a.keepFill = a'.keepFill)
    (h3 : a.incl = a'.incl) (h4 : a.excl = a'.excl) (h5 : a.output = a'.output) (h : Finishes a fs s w) : Finishes a' fs s w := by
  have hstep : ∀ st f, step a st f = step a' st f := by
    intro st f; unfold step selected; rw [h1, h2, h3, h4, h5]
  have hloop : ∀ fs st, loop a st fs = loop a' st fs := by
    intro fs
    induction fs with
    | nil => intro st; rfl
    | cons f fs ih =>
      intro st
      simp only [loop, hstep]
      congr 1
      funext st
      exact ih st
  cases h with
  | mk h1 h2 => exact .mk (by rw [← hloop]; exact h1) h2

/-- It holds if the file gives no marker, or the standard one, and an interleave depth below 256. -/
theorem C65_partial (b : Build) (k : Codec) (a : Args) (c : FramingConfig) (workers : Nat) (r : Reader) (s : Framing.Summary) (w : List (List U8))
    (ha : a.reedSolomon = none) (hasm : c.asm = none ∨ c.asm = some Sync.ASM) (hil : ∀ il vf, c.rs = some (il, vf) → il < 256)
    (h : FramingRun b k a (some c) workers r (some (s, w))) :
    ∃ frames, ConfiguredFrames b k a c workers r frames ∧ Finishes { a with length := c.length } frames s w := by
  have hm : c.asm.getD Sync.ASM = Sync.ASM := by rcases hasm with h | h <;> rw [h] <;> rfl
  generalize hs : some (s, w) = o at h
  cases h with
  | zeroLength => cases hs
  | @ran s' w' h1 h2 =>
    cases hs
    simp only [Option.map_some, Option.getD_some] at h1 h2
    cases hr : c.rs with
    | none =>
      have e : withConfig a c = { a with length := c.length, pn := c.pn } := by unfold withConfig; simp only [hr]
      rw [e] at h2
      cases h2 with
      | rs hh => simp [ha] at hh
      | plain _ ho hf =>
        obtain ⟨st, hy, he⟩ := ho
        cases st with
        | none => simp at he
        | some st =>
          have e1 : (config { a with length := c.length, pn := c.pn } workers).derandomize = c.pn := by
            cases hp : c.pn <;> simp [config, ha, Pipeline.Config.new, Pipeline.Config.withoutDerandomization]
          have e2 : Pipeline.start (config { a with length := c.length, pn := c.pn } workers) r = ⟨Sync.iter r Sync.ASM c.length, []⟩ := by
            cases hp : c.pn <;> simp [Pipeline.start, config, ha, Pipeline.Config.new, Pipeline.Config.withoutDerandomization]
          rw [e1, e2, ← hm] at hy
          exact ⟨_, .plain hr hy, finishes_congr (a := { a with length := c.length, pn := c.pn }) rfl rfl rfl rfl rfl hf⟩
    | some x =>
      obtain ⟨il, vf⟩ := x
      have hlt := hil il vf hr
      have e : withConfig a c = { a with length := c.length, pn := c.pn, reedSolomon := some (BitVec.ofNat 8 il), virtualfill := vf } := by
        unfold withConfig; simp only [hr]
      rw [e] at h2
      have hi : (BitVec.ofNat 8 il).toNat = il := by rw [BitVec.toNat_ofNat]; omega
      cases h2 with
      | plain hh => simp at hh
      | rs hh ho hc hf =>
        cases hh
        obtain ⟨o, p, frames, ended, ho, ⟨st, hy, he⟩, hreach⟩ := ho
        have hrs : (⟨BitVec.ofNat 8 il, vf, a.detect || a.correct, a.correct⟩, ⟨a.buffersize, workers⟩) = (o, p) := by
          cases hp : c.pn <;> simpa [config, hp, Pipeline.Config.withRs, Pipeline.Config.withoutDerandomization] using ho
        cases hrs
        have e1 : (config { a with length := c.length, pn := c.pn, reedSolomon := some (BitVec.ofNat 8 il), virtualfill := vf } workers).derandomize = c.pn := by
          cases hp : c.pn <;> simp [config, Pipeline.Config.new, Pipeline.Config.withRs, Pipeline.Config.withoutDerandomization]
        have e2 : Pipeline.start (config { a with length := c.length, pn := c.pn, reedSolomon := some (BitVec.ofNat 8 il), virtualfill := vf } workers) r =
            ⟨Sync.iter r Sync.ASM (c.length + 32 * il), []⟩ := by
          cases hp : c.pn <;>
            simp [Pipeline.start, config, Pipeline.Config.new, Pipeline.Config.withRs, Pipeline.Config.withoutDerandomization, RS.PARITY_LEN, Nat.mod_eq_of_lt hlt]
        rw [e1, e2, ← hm] at hy
        exact ⟨_, .rs hr hi hy hreach hc, finishes_congr
          (a := { a with length := c.length, pn := c.pn, reedSolomon := some (BitVec.ofNat 8 il), virtualfill := vf }) rfl rfl rfl rfl rfl hf⟩

/-- The marker in the file has no effect at all. -/
theorem C65_marker_ignored (b : Build) (k : Codec) (a : Args) (c : FramingConfig) (asm : Option (List U8)) (workers : Nat) (r : Reader)
    (o : Option (Framing.Summary × List (List U8))) : FramingRun b k a (some c) workers r o ↔ FramingRun b k a (some { c with asm := asm }) workers r o := by
  have e : withConfig a { c with asm := asm } = withConfig a c := rfl
  constructor <;> intro h <;> cases h with
  | zeroLength h => exact .zeroLength h
  | ran h h' => exact .ran h h'

/-- The interleave depth is taken modulo 256. -/
theorem C65_interleave_mod (b : Build) (k : Codec) (a : Args) (c : FramingConfig) (il vf : Nat) (workers : Nat) (r : Reader)
    (o : Option (Framing.Summary × List (List U8))) :
    FramingRun b k a (some { c with rs := some (il, vf) }) workers r o ↔ FramingRun b k a (some { c with rs := some (il % 256, vf) }) workers r o := by
  have e : withConfig a { c with rs := some (il, vf) } = withConfig a { c with rs := some (il % 256, vf) } := by
    unfold withConfig
    have : BitVec.ofNat 8 (il % 256) = BitVec.ofNat 8 il := by apply BitVec.eq_of_toNat_eq; simp [BitVec.toNat_ofNat]
    simp only [this]
  constructor <;> intro h <;> cases h with
  | zeroLength h => exact .zeroLength (by simpa [e] using h)
  | ran h h' => exact .ran (by simpa [e] using h) (by simpa [e] using h')

/-! ## Witness -/
namespace FramingConfigEx

def args : Args := ⟨0, false, true, none, false, false, 0, none, 16, [], [], false⟩
/-- A marker that does not occur in the stream. -/
def cfg : FramingConfig := ⟨some [1#8, 2#8, 3#8, 4#8], 0#16, 8, true, none⟩

theorem absent : ∀ i, ¬ Occurs (bits [1#8, 2#8, 3#8, 4#8]) (bits exCadus) i := by
  intro i h
  have hl := h.length_le
  rw [List.length_drop, show (bits [1#8, 2#8, 3#8, 4#8]).length = 32 from by decide, show (bits exCadus).length = 200 from by decide +kernel] at hl
  have hi : i < 169 := by omega
  have := List.prefix_iff_eq_take.1 h
  revert this
  have key : ∀ i < 169, bits [1#8, 2#8, 3#8, 4#8] ≠ List.take (bits [1#8, 2#8, 3#8, 4#8]).length ((bits exCadus).drop i) := by decide +kernel
  exact key i hi

theorem smooth : Smooth exPipeReader exCadus :=
  ⟨by intro e he
      simp only [exPipeReader, List.mem_cons, List.not_mem_nil, or_false] at he
      rcases he with rfl | rfl <;> exact ⟨_, by decide, rfl⟩, by decide, rfl⟩

theorem run (b : Build) (k : Codec) (c : FramingConfig) (hc : c = cfg ∨ c = { cfg with asm := none }) :
    ∃ s w, FramingRun b k args (some c) 1 exPipeReader (some (s, w)) ∧ s.tally.frames = 2 := by
  obtain ⟨frames, h1, h2⟩ := exPipe_outputs b
  have hl : frames.length = 2 := by simpa [exPipeFrames] using congrArg List.length h2
  have e : withConfig args c = { args with length := 8, pn := true } := by rcases hc with rfl | rfl <;> rfl
  obtain ⟨_, _, h3, _⟩ := C57_summary { args with length := 8, pn := true } frames
  obtain ⟨s, w, hf⟩ := h3.2 (by intro h; cases h)
  refine ⟨s, w, .ran (by simp [e]) ?_, ?_⟩
  · simp only [Option.map_some, Option.getD_some, e]
    exact .plain rfl h1 hf
  · obtain ⟨k1, _⟩ := (C57_summary _ frames).1 s w hf
    rw [k1.total.frames]
    unfold wanted
    rw [List.filter_eq_self.2, hl]
    intro f _
    simp [Wanted, args]

end FramingConfigEx

open FramingConfigEx in
/-- A stream with two frames behind the standard marker, a configuration with another marker: the two frames are reported nevertheless. -/
theorem C65_violated : ¬ C65_full := by
  intro h
  obtain ⟨s, w, hr, h2⟩ := run ⟨true⟩ ⟨fun _ => false, fun _ => (.ok, none)⟩ cfg (.inl rfl)
  obtain ⟨frames, hc, hf⟩ := h _ _ _ _ _ _ s w rfl hr
  have hnil : frames = [] := by
    cases hc with
    | rs hh => cases hh
    | plain _ hy =>
      obtain ⟨items, s', ps, c1, c2, c3, _⟩ := C26_first_markers exPipeReader exCadus [1#8, 2#8, 3#8, 4#8] 8 smooth (by simp)
      have hps : ps = [] := by
        cases c2 with
        | none => rfl
        | cons hh => exact absurd hh.2.1 (absent _)
      subst hps
      have hi : items = [] := by simpa using c3
      subst hi
      cases c1 with
      | done hn =>
        have hn' : ∀ o y, Pipeline.Pulls (Sync.iter exPipeReader [1#8, 2#8, 3#8, 4#8] 8) o y → o = none := by
          intro o y hp
          cases hp with
          | done => rfl
          | ok h => rw [hn] at h; cases h
          | skip h => rw [hn] at h; cases h
        cases hy with
        | done => rfl
        | stop => rfl
        | frame hp => cases hn' _ _ hp
  subst hnil
  obtain ⟨k1, _⟩ := (C57_summary _ []).1 s w hf
  have := k1.total.frames
  rw [h2] at this
  simp [wanted] at this

/-- With no marker in the file, the hypotheses of `C65_partial` are met by a run with two frames. -/
example (b : Build) (k : Codec) : ∃ s w, FramingRun b k FramingConfigEx.args (some { FramingConfigEx.cfg with asm := none }) 1 exPipeReader (some (s, w)) ∧
    s.tally.frames = 2 := FramingConfigEx.run b k _ (.inr rfl)

end Ccsds
