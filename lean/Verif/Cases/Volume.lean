import Verif.Props.Volume
import Verif.Props.Prompt
import Verif.Cases.Last
import Verif.Cases.Rs
import Verif.Cases.Framing
import Verif.Cases.Commands
import Verif.Cases.Frames
/-!
# Concrete cases of C134
-/
namespace Ccsds.Cases.Volume
open Spec Pipeline

/-- The 25 bytes of the two data units of `exCadus` give two blocks of 8 bytes: `2 · (4 + 8) ≤ 25 + 8`. -/
example : exCadus.length = 25 ∧ ∃ items s', Collects Sync.next (Sync.iter exPipeReader Sync.ASM 8) items (some s') ∧ items.length * (4 + 8) ≤ 25 + 8 := by
  obtain ⟨items, s', _, h, _⟩ := C26_first_markers _ exCadus Sync.ASM 8 exPipe_smooth (by decide)
  exact ⟨by decide, items, s', h, C134_blocks _ exCadus Sync.ASM 8 exPipe_smooth (by decide) items _ h⟩

example (b : Build) : ∃ frames ended, Outputs b (Config.new 8) exPipeReader frames ended ∧ frames.length = 2 ∧ frames.length * (4 + 8) ≤ 25 + 8 ∧
    ∀ ps e, Collects FramedPackets.next (FramedPackets.new frames 0 0) ps e → packetBytes ps + 4 * frames.length ≤ 25 + 8 := by
  obtain ⟨frames, h1, h2⟩ := exPipe_outputs b
  exact ⟨frames, _, h1, by have := congrArg List.length h2; simpa [exPipeFrames] using this, C134_frames b (Config.new 8) _ exCadus exPipe_smooth frames _ h1,
    fun ps e hp => C134_recording b (Config.new 8) _ exCadus exPipe_smooth frames _ h1 0 0 ps e hp⟩

/-- Packets A and B out of two frames. -/
example : ∃ ps e, Collects FramedPackets.next (FramedPackets.new SemEx.frames 0 0) ps e ∧ ps ≠ [] ∧ packetBytes ps ≤ frameBytes SemEx.frames := by
  obtain ⟨ps, s, h1, _, h2⟩ := C74_channel 0 0 43#16 SemEx.frames (by decide) (by decide +kernel)
  have := (h2 _).1 SemEx.decoded
  refine ⟨ps, _, h1, ?_, C134_packets_all 0 0 SemEx.frames ps _ h1⟩
  rintro rfl
  cases this

/-- `filter --include 1` keeps the first of two packets. -/
example (b : Build) : List.Sublist FilterEx.early FilterEx.stream :=
  by simpa using C134_filter b FilterEx.tau FilterEx.stream _ FilterEx.delivers [1#16] [] none none _ (Commands.only1 b) [FilterEx.early] (.inl rfl)

/-- A segmented group is in both inputs or only in one: 56 of the 70 + 28 bytes come out. -/
example (b : Build) : (MSEx.day 1#8 0#8 ++ MSEx.day 2#8 2#8 ++ MSEx.day 3#8 4#8).length ≤ MSEx.c0.length + MSEx.c1.length := by
  have := C134_merge b MergeEx.tau MSEx.merger MSEx.files MSEx.readable _ (MSEx.mergesAll b) [0, 1] (fun p hp => hp)
  simpa [MSEx.files, MergeEx.file, Nat.add_assoc] using this

/-- The `framing` command on the same reader, without Reed-Solomon. -/
example (b : Build) (k : Codec) : ∃ s w, Framing.Runs b k Last.args 1 exPipeReader s w ∧ w.flatten.length ≤ 25 + 8 := by
  obtain ⟨frames, h1, h2, h3⟩ := exPipe_decoded b
  obtain ⟨s, w, hf⟩ := (C57_pipeline b k Last.args 1 exPipeReader).1 frames _ h1 rfl
  have hr : Framing.Runs b k Last.args 1 exPipeReader s w := .plain rfl h1 hf
  exact ⟨s, w, hr, C134_framing b k Last.args 1 exPipeReader exCadus exPipe_smooth s w hr⟩

/-- The run of `AbandonEx` with Reed-Solomon. -/
example : ∃ s, Pipeline.Runs ⟨true⟩ (bddCodec repCode) AbandonEx.cfg AbandonEx.reader s ∧ s.got.length = 1 ∧ s.got.length * (4 + 32) ≤ AbandonEx.stream.length + 32 := by
  obtain ⟨s, h1, _, h3⟩ := AbandonEx.hidden
  exact ⟨s, h1, h3, C134_rs ⟨true⟩ (bddCodec repCode) AbandonEx.cfg AbandonEx.reader AbandonEx.stream ⟨by
    intro e he
    simp only [AbandonEx.reader, List.mem_cons, List.not_mem_nil, or_false] at he
    subst he; exact ⟨_, by decide +kernel, rfl⟩, by simp [AbandonEx.reader, evBytes, Ev.bytes], rfl⟩ s h1⟩

end Ccsds.Cases.Volume
