import Verif.Props.FramingTotal
import Verif.Props.InputErrors
import Verif.Props.Sizes
/-!
# C80 for `ccsds framing`: read errors are not reported
-/
namespace Ccsds
open Cmd Spec Framing
variable {Path : Type} [DecidableEq Path]

/-- What the frames are on a reader that ends, whatever errors it reports before: those `frame_decoder` makes of the `Ok` blocks. Nothing remains of the `Err` items. -/
theorem frames_of_oks (b : Build) (c : Pipeline.Config) (r : Reader) (ht : r.tail = .eof) : ∃ (items : List (Except Error Block)) (s' : Sync.Iter) (frames : List Frame) (e : Option FrameDecoder.State),
    Collects Sync.next (Sync.iter r Sync.ASM c.blockLength) items (some s') ∧
    Collects (FrameDecoder.next b) (FrameDecoder.new ((oks items).map (Pipeline.prep c.derandomize))) frames e ∧ Pipeline.Outputs b c r frames e.isSome := by
  obtain ⟨items, s', h⟩ := C30_terminates_always r Sync.ASM c.blockLength (by decide) ht
  obtain ⟨frames, e, hc, _⟩ := C35_frames b ((oks items).map (Pipeline.prep c.derandomize))
  obtain ⟨e', hy, he⟩ := Pipeline.yields_of_collects b c.derandomize hc _ _ _ h rfl
  exact ⟨items, s', frames, e, h, hc, e', hy, he⟩

/-- Without Reed–Solomon, in a release build, `frame_aos` comes to a summary on every reader that ends, whatever errors it reports before the end. -/
theorem C80_framing (b : Build) (hb : b.overflowChecks = false) (k : Codec) (a : Args) (workers : Nat) (ha : a.reedSolomon = none) (r : Reader) (ht : r.tail = .eof) :
    ∃ sm ws, Runs b k a workers r sm ws := by
  obtain ⟨items, s', frames, e, h1, h2, h3⟩ := frames_of_oks b (config a workers) r ht
  cases e with
  | none => rw [(C35_panic b _ _ h2).1] at hb; cases hb
  | some s =>
    have hl : LongEnough a frames := by
      intro _ f hf _
      rw [C61_frames _ _ _ _ _ h3 f (List.mem_filter.1 hf).1]
      simp only [config, ha]
      split <;> simp [Pipeline.Config.new, Pipeline.Config.withoutDerandomization]
    obtain ⟨sm, ws, hf⟩ := (C57_summary a frames).2.2.1.2 hl
    exact ⟨sm, ws, .plain ha h3 hf⟩

/-- C80 for `framing`, full statement: it does not report success when the input cannot be read to the end. -/
def C80_framing_full : Prop := ∀ (b : Build) (k : Codec) (ud : Char → Bool) (parseCfg : List U8 → Option FramingConfig) (render : Framing.Summary → List U8) (workers : Nat)
  (env : Cmd.Inputs Nat) (a : FramingArgs Nat) (fs fs' : FS Nat) (s : List WEv) (pre : List Ev) (e : IoKind) (post : List Ev) (t : Tail),
  a.input = env.dash → FailsMidway env.stdin pre e post t → ¬ FramingCmd b k ud parseCfg render workers env a fs s .ok fs'

/-- What happens instead: whatever read errors there are before the end of standard input, `framing` (with valid arguments, without Reed–Solomon, release build) can
report success. -/
theorem C80_framing_hidden (b : Build) (hb : b.overflowChecks = false) (k : Codec) (ud : Char → Bool) (parseCfg : List U8 → Option FramingConfig)
    (render : Framing.Summary → List U8) (workers : Nat) (env : Cmd.Inputs Path) (a : FramingArgs Path) (fs : FS Path) (s : List WEv) (hs : Healthy s)
    (i e : List Nat) (hi : Ranges.parse ud a.incl = some i) (he : Ranges.parse ud a.excl = some e) (hc : a.config = none) (hl : a.base.length ≠ 0)
    (hrs : a.base.reedSolomon = none) (hd : a.input = env.dash) (ht : env.stdin.tail = .eof) :
    ∃ fs', FramingCmd b k ud parseCfg render workers env a fs s .ok fs' := by
  have hr : ∀ now, env.reader fs now a.input = some env.stdin := by intro now; unfold Inputs.reader; rw [if_pos hd]
  have hcfg : configOf parseCfg fs a = some none := by unfold configOf; rw [hc]
  obtain ⟨_, r, h1, h2⟩ := C78_possible (b := b) (k := k) (render := render) (workers := workers) (s := s) hi he (by rw [hr]; simp) hcfg hl
  rw [hr] at h1
  cases h1
  obtain ⟨sm, ws, hrun⟩ := C80_framing b hb k (framingArgs a none i e) workers hrs env.stdin ht
  exact ⟨_, h2 hs (.inl hrs) sm ws hrun⟩

/-- The full statement is violated. -/
theorem C80_framing_violated : ¬ C80_framing_full := by
  intro h
  have hf : FailsMidway ⟨[.err (.other 5), .data [0x1a, 0xcf]], .eof⟩ [] (.other 5) [.data [0x1a, 0xcf]] .eof := ⟨rfl, by simp, by decide, by decide⟩
  obtain ⟨fs', hrun⟩ := C80_framing_hidden ⟨false⟩ rfl ⟨fun _ => false, fun _ => (.ok, none)⟩ (fun _ => false) (fun _ => none) (fun _ => []) 1
    ⟨0, ⟨[.err (.other 5), .data [0x1a, 0xcf]], .eof⟩, fun _ => none, fun _ c => .ofBytes c⟩ (FramingCmdEx.args 1) FramingCmdEx.disk [] (by simp [Healthy]) [] [] rfl rfl rfl
    (by decide) rfl rfl rfl
  exact h _ _ _ _ _ _ _ _ _ _ _ _ _ _ _ rfl hf hrun

end Ccsds
