import Verif.Props.Writes
import Verif.Props.RsStage
/-!
# C78: when `ccsds framing` is refused, and that it does its work otherwise
-/
namespace Ccsds
open Cmd Spec Framing
variable {Path : Type} [DecidableEq Path]

/-- If the consumer has seen the end, the process was not aborted. -/
theorem ended_not_aborted (p : RsStage.Params) (job : Frame → Outcome Frame) (input : List Frame) (s : RsStage.State) (h : RsStage.Reach p job input s)
    (he : s.cons = .ended) : s.aborted = none := by
  cases ha : s.aborted with
  | none => rfl
  | some a =>
    obtain ⟨i, f, _, hf, hp⟩ := C42_abort p job input s a h ha
    have hn := C42_none p job input s h he
    have : Outcome.panic ∈ s.got.map Outcome.ret := by
      rw [hn]; exact List.mem_map.2 ⟨f, List.mem_of_getElem? hf, hp⟩
    simp at this

/-- On a healthy output every run on an output that cannot fail is possible, also with Reed–Solomon. -/
theorem framing_runsW_any {b : Build} {k : Codec} {a : Args} {workers : Nat} {r : Reader} {s : List WEv} {sm : Framing.Summary} {ws : List (List U8)} (hs : Healthy s)
    (h : Runs b k a workers r sm ws) : RunsW b k a workers r s (some sm) false ws.flatten := by
  have key : ∀ frames, Finishes a frames sm ws → Source b k a workers r frames .ended → RunsW b k a workers r s (some sm) false ws.flatten := by
    intro frames h3 hsrc
    cases h3 with
    | @mk st infos hl hp =>
      have hlong : LongEnough a frames := (C57_summary a frames).2.2.1.1 ⟨_, _, .mk hl hp⟩
      obtain ⟨i1, i2, i3⟩ := framing_loopW a frames s ⟨.default, [], []⟩ [] []
      cases hw : loopW a s ⟨.default, [], []⟩ [] frames with
      | failed w => exact absurd hs (i2 _ hw).1
      | panicked w => exact absurd hlong (i3 _ hw).1
      | done st' w =>
        obtain ⟨e1, e2⟩ := i1 _ _ hw
        rw [hl] at e2
        cases e2
        have := RunsW.done (b := b) (k := k) (workers := workers) (r := r) hsrc hw (infos := infos) hp
        rw [e1] at this
        simpa using this
  cases h with
  | plain h1 h2 h3 => exact key _ h3 (.plain h1 h2)
  | rs h1 h2 h3 h4 =>
    obtain ⟨o, p, frames, ended, g1, g2, g3⟩ := h2
    have ha := ended_not_aborted _ _ _ _ g3 h3
    have := Source.rs (b := b) (k := k) (workers := workers) (r := r) h1 ⟨o, p, frames, ended, g1, g2, g3⟩
    rw [if_neg (by simp [ha]), if_pos h3] at this
    exact key _ h4 this

section
variable {b : Build} {k : Codec} {ud : Char → Bool} {parseCfg : List U8 → Option FramingConfig} {render : Framing.Summary → List U8} {workers : Nat}
  {env : Cmd.Inputs Path} {a : FramingArgs Path} {fs fs' : FS Path} {s : List WEv}

theorem reader_none {fs now : FS Path} {p : Path} (h : env.reader fs fs p = none) : env.reader fs now p = none := by
  unfold Inputs.reader at *
  split at h
  · cases h
  · split at h
    · rename_i _ h1
      simp only [Option.map_eq_none_iff] at h
      exact absurd h h1
    · rename_i h0 h1
      rw [if_neg h0, if_neg h1]
      exact h

theorem reader_some {fs : FS Path} {o : Option Path} {p : Path} (h : env.reader fs fs p ≠ none) : ∃ r, env.reader fs (fs.create o) p = some r := by
  unfold Inputs.reader at *
  split at h
  · rw [if_pos (by assumption)]; exact ⟨_, rfl⟩
  · split at h
    · rename_i h0 h1
      rw [if_neg h0, if_pos h1]
      have : fs.create o p ≠ none := by
        cases o with
        | none => exact h1
        | some q => simp only [FS.create, FS.put]; split <;> simp_all
      obtain ⟨c, hc⟩ := Option.ne_none_iff_exists'.1 this
      exact ⟨_, by rw [hc]; rfl⟩
    · rename_i h0 h1
      rw [if_neg h0, if_neg h1]
      exact Option.ne_none_iff_exists'.1 h

/-- C78: with an `--include` or `--exclude` that is not a list of ranges, an input that is neither "-" nor a file nor a host that answers, or a configuration that cannot
be read or understood, the only result is an error that changes nothing; and so with a frame length of 0. -/
theorem C78_refused
    (h : Ranges.parse ud a.incl = none ∨ Ranges.parse ud a.excl = none ∨ env.reader fs fs a.input = none ∨ configOf parseCfg fs a = none ∨
      ∃ cfg, configOf parseCfg fs a = some cfg ∧ ((cfg.map (withConfig a.base)).getD a.base).length = 0) (st : Status) :
    FramingCmd b k ud parseCfg render workers env a fs s st fs' ↔ st = .error ∧ fs' = fs := by
  constructor
  · intro hc
    cases hc with
    | badArgs | noInput | badConfig | zeroLength | createFails => exact ⟨rfl, rfl⟩
    | @notFinished cfg i e r panicked w h1 h2 h3 h4 h5 h6 h7 =>
      exfalso
      rcases h with h | h | h | h | ⟨c, h, h'⟩
      · rw [h1] at h; cases h
      · rw [h2] at h; cases h
      · rw [reader_none h] at h6; cases h6
      · rw [h3] at h; cases h
      · rw [h3] at h; cases h; exact h4 h'
    | @finished cfg i e r sm w part ok created printed h1 h2 h3 h4 h5 h6 h7 h8 h9 h10 =>
      exfalso
      rcases h with h | h | h | h | ⟨c, h, h'⟩
      · rw [h1] at h; cases h
      · rw [h2] at h; cases h
      · rw [reader_none h] at h6; cases h6
      · rw [h3] at h; cases h
      · rw [h3] at h; cases h; exact h4 h'
  · rintro ⟨rfl, rfl⟩
    by_cases hi : Ranges.parse ud a.incl = none
    · exact .badArgs (.inl hi)
    by_cases he : Ranges.parse ud a.excl = none
    · exact .badArgs (.inr he)
    by_cases hr : env.reader fs' fs' a.input = none
    · exact .noInput hi he hr
    by_cases hg : configOf parseCfg fs' a = none
    · exact .badConfig hi he hr hg
    obtain ⟨i, hi'⟩ := Option.ne_none_iff_exists'.1 hi
    obtain ⟨e, he'⟩ := Option.ne_none_iff_exists'.1 he
    rcases h with h | h | h | h | ⟨c, h, h'⟩
    · exact absurd h hi
    · exact absurd h he
    · exact absurd h hr
    · exact absurd h hg
    · exact .zeroLength hi' he' hr h h'

/-- C78: otherwise, and unless the output is the input file with Reed–Solomon on: every run of the frame loop to its end (`Runs`) on the reader the input has by then
gives, with an output that takes everything, the result success with the records in the output and the summary in the summary file; and the only way to
fail before the first byte is the output file, if there is to be one. -/
theorem C78_possible {i e : List Nat} {cfg : Option FramingConfig} (hi : Ranges.parse ud a.incl = some i) (he : Ranges.parse ud a.excl = some e)
    (hr : env.reader fs fs a.input ≠ none) (hc : configOf parseCfg fs a = some cfg) (hl : ((cfg.map (withConfig a.base)).getD a.base).length ≠ 0) :
    (a.output ≠ none → FramingCmd b k ud parseCfg render workers env a fs s .error fs) ∧
    ∃ r, env.reader fs (fs.create a.output) a.input = some r ∧
      (Healthy s → (((cfg.map (withConfig a.base)).getD a.base).reedSolomon = none ∨ a.output ≠ some a.input) →
        ∀ sm ws, Runs b k (framingArgs a cfg i e) workers r sm ws →
          FramingCmd b k ud parseCfg render workers env a fs s .ok ((fs.fill a.output ws.flatten).fill a.summary (render sm))) := by
  refine ⟨fun ho => .createFails hi he hr hc hl ho, ?_⟩
  obtain ⟨r, hr'⟩ := reader_some (o := a.output) hr
  refine ⟨r, hr', fun hs hrs sm ws hrun => ?_⟩
  exact FramingCmd.finished (part := render sm) (ok := true) (created := true) (printed := true) hi he hc hl hrs hr' (framing_runsW_any hs hrun)
    (fun _ _ => ⟨List.prefix_refl _, fun _ => rfl⟩) (fun _ => rfl) (fun _ => rfl)

/-- C78: without an output and a summary file nothing is changed, whatever happens. -/
theorem C78_unchanged {st : Status} (h : FramingCmd b k ud parseCfg render workers env a fs s st fs') (ho : a.output = none) (hs : a.summary = none) : fs' = fs := by
  funext p
  exact (C78_files h).1 p (by simp [ho]) (by simp [hs])

/-- C78: when there is a run to the end to be had and the output takes everything, an error is never reported before the work is done except for the output file
(which then is as it was): with no output and no summary file an error can only come from writing to the terminal. -/
theorem C78_error_late {i e : List Nat} {cfg : Option FramingConfig} (hi : Ranges.parse ud a.incl = some i) (he : Ranges.parse ud a.excl = some e)
    (hr : env.reader fs fs a.input ≠ none) (hc : configOf parseCfg fs a = some cfg) (hl : ((cfg.map (withConfig a.base)).getD a.base).length ≠ 0)
    (ho : a.output = none) (hs : Healthy s) (h : FramingCmd b k ud parseCfg render workers env a fs s .error fs') :
    ∃ r sm ws, env.reader fs fs a.input = some r ∧ Runs b k (framingArgs a cfg i e) workers r sm ws := by
  generalize hst : Status.error = st at h
  cases h with
  | badArgs h => rcases h with h | h <;> simp_all
  | noInput _ _ h => exact absurd h hr
  | badConfig _ _ _ h => rw [hc] at h; cases h
  | zeroLength _ _ _ h h' => rw [hc] at h; cases h; exact absurd h' hl
  | createFails _ _ _ _ _ h => exact absurd ho h
  | @notFinished cfg' i' e' r panicked w h1 h2 h3 h4 h5 h6 h7 =>
    cases panicked with
    | true => cases hst
    | false => exact absurd hs ((framing_runsW_none h7).1 rfl)
  | @finished cfg' i' e' r sm w part ok created printed h1 h2 h3 h4 h5 h6 h7 h8 h9 h10 =>
    rw [hi] at h1; rw [he] at h2; rw [hc] at h3
    cases h1; cases h2; cases h3
    obtain ⟨_, ws, hrun, _⟩ := framing_runsW h7
    rw [ho] at h6
    exact ⟨r, sm, ws, h6, hrun⟩

end

open FramingCmdEx in
/-- The hypotheses of `C78_possible` are met (the run is `FramingCmdEx.run`), and so are those of `C78_refused`. -/
example : Ranges.parse (fun _ => false) (args 1).incl = some [] ∧ env.reader disk disk (args 1).input ≠ none ∧ configOf (fun _ => none) disk (args 1) = some none ∧
    env.reader disk disk 2 = none := by
  refine ⟨rfl, by simp [Inputs.reader, env, args], rfl, ?_⟩
  simp [Inputs.reader, env, disk]

end Ccsds
