import Verif.Cases.Commands
import Verif.Props.Framing
import Verif.Props.FramingConfig
import Verif.Props.ConfigFlags
import Verif.Props.FramingTotal
import Verif.Props.FramingErrors
import Verif.Props.Report
import Verif.Props.Json
import Verif.Props.Stdout
/-!
# Concrete cases: `ccsds framing` and the reports

Each theorem of `Props/Framing`, `Props/FramingConfig`, `Props/ConfigFlags`, `Props/FramingTotal`, `Props/FramingErrors`, `Props/Report`, `Props/Json` and `Props/Stdout` that has
hypotheses, applied to concrete data that meets them. Where `example` is followed directly by `:=`, its statement is that of the theorem at these arguments.
-/
namespace Ccsds.Cases.Framing
open Spec Cmd

/-! ## C57, C84 -/

def summary : Framing.Summary := ⟨⟨3, 7, 3, 1, 1, 1, 0, 0⟩, [⟨4, ⟨1, 2, 1, 1, 0, 0, 0, 0⟩⟩, ⟨9, ⟨2, 5, 2, 0, 1, 1, 0, 0⟩⟩]⟩

theorem finishes : Framing.Finishes exFramingArgs exFramingFrames summary [[1, 2], [3, 4]] := by
  have : Framing.Finishes exFramingArgs exFramingFrames _ _ := .mk (st := ⟨⟨3, 7, 3, 1, 1, 1, 0, 0⟩, [(9, ⟨9, ⟨2, 5, 2, 0, 1, 1, 0, 0⟩⟩), (4, ⟨4, ⟨1, 2, 1, 1, 0, 0, 0, 0⟩⟩)], [[1, 2], [3, 4]]⟩)
    (infos := [⟨4, ⟨1, 2, 1, 1, 0, 0, 0, 0⟩⟩, ⟨9, ⟨2, 5, 2, 0, 1, 1, 0, 0⟩⟩]) rfl (List.Perm.swap _ _ _)
  rw [List.mergeSort_of_pairwise] at this
  · exact this
  · simp

example := C57_balance exFramingArgs exFramingFrames summary _ finishes
example := C57_fixed exFramingArgs exFramingFrames summary _ finishes
example := C57_totals exFramingArgs exFramingFrames summary _ finishes
example : Spec.Report.framing (Report.framingText summary) = some summary :=
  Report.C84_command exFramingArgs exFramingFrames summary _ finishes (by decide) (by simp [Report.Fits, summary])
example (s' : Framing.Summary) (hs' : ∀ i ∈ s'.vcids, i.vcid.toNat < 10 ^ 4 ∧ Report.Fits i.tally) (h : Report.framingText summary = Report.framingText s') : summary = s' :=
  Report.C84_injective summary s' (by simp [Report.Fits, summary]) hs' h
example := Report.C84_vcid [0x55#8, 0x61#8, 0x01#8, 0xe2#8, 0x40#8, 0x05#8] ⟨1, 85, 33, 123456⟩ (by decide +kernel)

/-! ## C65, C87 -/

example (b : Build) (k : Codec) : ∃ s w frames, FramingRun b k FramingConfigEx.args (some { FramingConfigEx.cfg with asm := none }) 1 exPipeReader (some (s, w)) ∧
    ConfiguredFrames b k FramingConfigEx.args { FramingConfigEx.cfg with asm := none } 1 exPipeReader frames := by
  obtain ⟨s, w, h, _⟩ := FramingConfigEx.run b k _ (.inr rfl)
  obtain ⟨frames, hf, _⟩ := C65_partial b k FramingConfigEx.args { FramingConfigEx.cfg with asm := none } 1 exPipeReader s w rfl (.inl rfl) (by simp [FramingConfigEx.cfg]) h
  exact ⟨s, w, frames, h, hf⟩

/-- The frames of `exPipeReader` are 8 bytes long, `--rs 1 --virtualfill 215` on the command line and no `rs` entry in the configuration: as with that entry. -/
example (b : Build) (k : Codec) (o : Option (Framing.Summary × List (List U8))) :
    FramingRun b k { ConfigFlagsEx.args with reedSolomon := some 1, virtualfill := 215 } (some ConfigFlagsEx.cfg) 1 exPipeReader o ↔
    FramingRun b k { ConfigFlagsEx.args with reedSolomon := some 1, virtualfill := 215 } (some { ConfigFlagsEx.cfg with rs := some (1, 215) }) 1 exPipeReader o :=
  C87_exact b k { ConfigFlagsEx.args with reedSolomon := some 1, virtualfill := 215 } ConfigFlagsEx.cfg 1 exPipeReader o rfl

/-- Buffer size, threads, detection and correction do not matter without Reed-Solomon. -/
example (b : Build) (k : Codec) : ∃ o, FramingRun b k { ConfigFlagsEx.args with buffersize := 1, detect := true, correct := true, virtualfill := 9 } (some ConfigFlagsEx.cfg) 7 exPipeReader o := by
  obtain ⟨s, w, h, _⟩ := ConfigFlagsEx.run b k
  exact ⟨_, (C87_unless_rs b k ConfigFlagsEx.args { ConfigFlagsEx.args with buffersize := 1, detect := true, correct := true, virtualfill := 9 } (some ConfigFlagsEx.cfg) 1 7 exPipeReader _
    rfl rfl rfl rfl rfl rfl (by intro x hx; cases hx; rfl) rfl rfl).1 h⟩

/-! ## C78, C80 -/

/-- The input file does not exist. -/
example (b : Build) (k : Codec) (st : Status) (fs' : FS Nat) :
    FramingCmd b k (fun _ => false) (fun _ => none) (fun _ => []) 1 FramingCmdEx.env { FramingCmdEx.args 1 with input := 2 } FramingCmdEx.disk [] st fs' ↔ st = .error ∧ fs' = FramingCmdEx.disk :=
  C78_refused (.inr (.inr (.inl (by simp [Inputs.reader, FramingCmdEx.env, FramingCmdEx.disk])))) st

def noOutput : FramingArgs Nat := { FramingCmdEx.args 2 with output := none }

/-- A run without output and summary files exists, and changes nothing. -/
example (b : Build) (hb : b.overflowChecks = false) (k : Codec) :
    FramingCmd b k (fun _ => false) (fun _ => none) (fun _ => []) 1 FramingCmdEx.env noOutput FramingCmdEx.disk [] .ok FramingCmdEx.disk := by
  obtain ⟨fs', h⟩ := C80_framing_hidden b hb k (fun _ => false) (fun _ => none) (fun _ => []) 1 FramingCmdEx.env noOutput FramingCmdEx.disk [] (by simp [Healthy]) [] [] rfl rfl rfl
    (by decide) rfl rfl rfl
  have := C78_unchanged h rfl rfl
  subst this
  exact h

/-- Without an output file an error comes after the report. -/
example (b : Build) (k : Codec) (fs' : FS Nat) (h : FramingCmd b k (fun _ => false) (fun _ => none) (fun _ => []) 1 FramingCmdEx.env noOutput FramingCmdEx.disk [] .error fs') :=
  C78_error_late (a := noOutput) (b := b) (k := k) (ud := fun _ => false) (parseCfg := fun _ => none) (render := fun _ => []) (workers := 1) (env := FramingCmdEx.env) (fs := FramingCmdEx.disk) (s := []) (fs' := fs') (i := []) (e := []) (cfg := none) rfl rfl (by simp [Inputs.reader, FramingCmdEx.env, noOutput, FramingCmdEx.args]) rfl (show (8 : Nat) ≠ 0 by decide) rfl (by simp [Healthy]) h

/-- Such an error: the report cannot be printed. -/
example (b : Build) (k : Codec) : ∃ fs', FramingCmd b k (fun _ => false) (fun _ => none) (fun _ => []) 1 FramingCmdEx.env noOutput FramingCmdEx.disk [] .error fs' := by
  obtain ⟨frames, h1, _⟩ := exPipe_outputs b
  let fa : Framing.Args := framingArgs noOutput none [] []
  obtain ⟨_, _, h3, _⟩ := C57_summary fa frames
  obtain ⟨s, w, hf⟩ := h3.2 (by intro h; cases h)
  exact ⟨_, FramingCmd.finished (part := []) (ok := true) (created := true) (printed := false) (sm := s) (cfg := none) (i := []) (e := []) rfl rfl rfl (show (8 : Nat) ≠ 0 by decide) (.inl rfl) rfl
    (framing_runsW_of (by simp [Healthy]) rfl (.plain rfl h1 hf)) (by intro h; exact absurd rfl h) (fun _ => rfl) (fun _ => rfl)⟩

/-- A read error in the middle of the stream. -/
example (b : Build) (hb : b.overflowChecks = false) (k : Codec) : ∃ sm ws, Framing.Runs b k (framingArgs noOutput none [] []) 1
    ⟨[.data (exCadus.take 14), .err (.other 5), .data (exCadus.drop 14)], .eof⟩ sm ws := C80_framing b hb k (framingArgs noOutput none [] []) 1 rfl _ rfl

/-! ## C89 -/

example (s : Framing.Summary) (h : Report.framingJson summary = Report.framingJson s) : summary = s := Report.C89_injective summary s h
example : Spec.Json.parse ((Report.infoJson Report.exShow Report.exShowD "a\"b".toList ⟨⟨2, 0, some ⟨.utc, 5⟩, none, 4⟩, [(7, ⟨2, 0, none, none, 0⟩)]⟩).take 50) = none :=
  Report.C89_info_incomplete Report.exShow Report.exShowD _ _ _ (List.take_prefix _ _) (by decide +kernel)

/-! ## C90 -/

/-- A standard output that takes five bytes and then is full: what has come out is a beginning, not everything. -/
example : ((Stdout.new [.accept 5, .err (.other 28), .err (.other 28)]).writes [[72#8, 10#8], [1#8, 2#8, 3#8, 4#8, 10#8]]).2.exit <+: [72#8, 10#8, 1#8, 2#8, 3#8, 4#8, 10#8] :=
  C90_prefix _ _

/-- On an output that is interrupted everything comes out: the hypotheses of `C90_lines` and `C90_complete` are met. -/
example := C90_lines [.accept 5, .err .interrupted] [[72#8, 10#8], [1#8, 2#8, 3#8, 4#8, 10#8]] (C90_healthy _ _ (by unfold Healthy; simp)).1
example : ((Stdout.new [.accept 5, .err .interrupted]).writes [[72#8, 10#8], [1#8, 2#8, 3#8, 4#8, 10#8]]).2.exit = [72#8, 10#8, 1#8, 2#8, 3#8, 4#8, 10#8] :=
  C90_complete [.accept 5, .err .interrupted] [[72#8, 10#8], [1#8, 2#8, 3#8, 4#8, 10#8]] (C90_healthy _ _ (by unfold Healthy; simp)).1 rfl

theorem infoText (b : Build) (showE : Epoch → Report.Text) (showD : Int → Report.Text) : ∃ out, InfoCmd b FilterEx.tau showE showD (fun _ : Nat => Reader.ofBytes) (fun _ => ['x']) true .text 0
    (fun _ => some FilterEx.stream) [.accept 7, .err .interrupted] .ok out := by
  obtain ⟨i, _, hi⟩ := C56_info b FilterEx.tau true _ _ _ FilterEx.delivers FilterEx.decodes
  exact ⟨_, C90_info_total (script := [.accept 7, .err .interrupted]) (by unfold Healthy; simp) rfl ((hi (some i)).2 rfl)⟩

theorem infoJson (b : Build) (showE : Epoch → Report.Text) (showD : Int → Report.Text) : ∃ out, InfoCmd b FilterEx.tau showE showD (fun _ : Nat => Reader.ofBytes) (fun _ => ['x']) true .json 0
    (fun _ => some FilterEx.stream) [.accept 7, .err .interrupted] .ok out := by
  obtain ⟨i, _, hi⟩ := C56_info b FilterEx.tau true _ _ _ FilterEx.delivers FilterEx.decodes
  exact ⟨_, C90_info_total (script := [.accept 7, .err .interrupted]) (by unfold Healthy; simp) rfl ((hi (some i)).2 rfl)⟩

example (b : Build) (showE : Epoch → Report.Text) (showD : Int → Report.Text) := C90_info_text (infoText b showE showD).choose_spec
example (b : Build) (showE : Epoch → Report.Text) (showD : Int → Report.Text) := C90_info_json (infoJson b showE showD).choose_spec
example (b : Build) (showE : Epoch → Report.Text) (showD : Int → Report.Text) := C90_info_prefix (infoJson b showE showD).choose_spec
example (b : Build) (showE : Epoch → Report.Text) (showD : Int → Report.Text) := C90_partial (.inr (by unfold Healthy; simp)) (infoJson b showE showD).choose_spec

example : ((Stdout.new [.accept 9]).write (Report.utf8 (Report.framingText summary))).2.exit = Report.utf8 (Report.framingText summary) := by
  have h := (C90_healthy [.accept 9] [Report.utf8 (Report.framingText summary)] (by unfold Healthy; simp)).1
  rw [write_one] at h
  exact C90_framing _ summary h

example (b : Build) (h : DiffCmd b DiffEx.crc0 (fun _ : Nat => Reader.ofBytes) (fun _ => ['x']) false 0 1
    (fun p => if p = 0 then some FilterEx.stream else some FilterEx.early) [.accept 5] .ok (Report.utf8 (Report.diffText b ['x'] ['x'] none []).1)) :=
  C90_diff h (by decide)

/-! ## C89 and a failed run -/

example (k : Codec) (st : Status) (fs' : FS Nat) (h : FramingCmd ⟨true⟩ k (fun _ => false) (fun _ => none) Report.framingJsonBytes 1 FramingCmdEx.env { FramingCmdEx.args 2 with summary := some 4 } FramingCmdEx.disk [] st fs') :=
  Report.C89_failed (p := 4) h rfl (by decide)

end Ccsds.Cases.Framing
