import Verif.Props.Termination
import Verif.Props.MergeCommand
import Verif.Props.FramingConfig
/-!
# Every command has a result, and when it is refused

C62 (an existing output is refused), C66 (the commands end), C65 (block length 0), C22 (no group is written in part).
-/
namespace Ccsds
open Cmd Spec
variable {Path : Type} [DecidableEq Path]

/-! ## C62 -/

/-- Without `--clobber` and with an existing output the only result of `ccsds filter` is a refusal that changes nothing. -/
theorem C62_filter_refused (b : Build) (τ : Epoch → Int) (ud : Char → Bool) (sched : Path → List U8 → Reader) (a : FilterArgs Path) (fs fs' : FS Path)
    (st : Status) (hc : a.clobber = false) (ho : fs a.output ≠ none) : FilterRun b τ ud sched a fs st fs' ↔ st = .error ∧ fs' = fs := by
  constructor
  · intro h
    have := (C62_filter b τ ud sched a fs fs' st h).2.1 hc ho
    exact ⟨this.2, this.1⟩
  · rintro ⟨rfl, rfl⟩
    exact .exists_ hc ho

theorem C62_merge_refused (b : Build) (τ : Epoch → Int) (micros : Epoch → Nat) (sched : Path → List U8 → Reader) (a : MergeArgs Path) (fs fs' : FS Path)
    (st : Status) (hc : a.clobber = false) (ho : fs a.output ≠ none) : MergeRun b τ micros sched a fs st fs' ↔ st = .error ∧ fs' = fs := by
  constructor
  · intro h
    have := (C62_merge b τ micros sched a fs fs' st h).2.1 hc ho
    exact ⟨this.2, this.1⟩
  · rintro ⟨rfl, rfl⟩
    exact .exists_ hc ho

/-! ## C66 for the whole commands -/

/-- `ccsds filter` has a result for all arguments and all files, if reading a file comes to an end. With an output that may be created, an input that
exists and ranges that parse it need not be an error of the file system: there is a result of the filter itself. -/
theorem C66_filter_command (b : Build) (τ : Epoch → Int) (ud : Char → Bool) (sched : Path → List U8 → Reader) (a : FilterArgs Path) (fs : FS Path)
    (hs : ∀ p c, (sched p c).tail = .eof) :
    (∃ st fs', FilterRun b τ ud sched a fs st fs') ∧
    ((a.clobber = true ∨ fs a.output = none) → ∀ content, fs a.input = some content → a.input ≠ a.output → ∀ i e, Ranges.parse ud a.incl = some i →
      Ranges.parse ud a.excl = some e → ∃ res, Filter.Runs b τ (sched a.input content) (Ranges.toU16 i) (Ranges.toU16 e) a.before a.after res ∧
        FilterRun b τ ud sched a fs (filterEnd res).1 (fs.put a.output (filterEnd res).2.flatten)) := by
  constructor
  · by_cases hc : a.clobber = true ∨ fs a.output = none
    · by_cases hi : fs a.input = none
      · exact ⟨_, _, .noInput hc hi⟩
      · exact ⟨_, _, .createFails hc hi⟩
    · refine ⟨_, _, .exists_ ?_ ?_⟩
      · cases h : a.clobber with
        | true => exact absurd (.inl h) hc
        | false => rfl
      · exact fun h => hc (.inr h)
  · intro hc content hcon hne i e hi he
    obtain ⟨res, hr⟩ := filter_ends b τ (Ranges.toU16 i) (Ranges.toU16 e) a.before a.after (sched a.input content) (hs _ _)
    refine ⟨res, hr, .ran hc (by rw [hcon]; simp) ?_ hi he hr⟩
    simp [FS.put, hne, hcon]

/-- The same for `ccsds merge`; here the inputs need not exist. -/
theorem C66_merge_command (b : Build) (τ : Epoch → Int) (micros : Epoch → Nat) (sched : Path → List U8 → Reader) (a : MergeArgs Path) (fs : FS Path)
    (hs : ∀ p c, (sched p c).tail = .eof) :
    (∃ st fs', MergeRun b τ micros sched a fs st fs') ∧
    ((a.clobber = true ∨ fs a.output = none) → a.inputs ≠ [] → ∀ ord, orderOf a = some ord →
      ∃ res, Merger.Merges b τ (mergerOf micros a ord) ((fs.put a.output []).files sched) res ∧
        MergeRun b τ micros sched a fs (mergeEnd res).1 (fs.put a.output (mergeEnd res).2.flatten)) := by
  constructor
  · by_cases hc : a.clobber = true ∨ fs a.output = none
    · by_cases hi : orderOf a = none
      · exact ⟨_, _, .badName hc hi⟩
      · exact ⟨_, _, .createFails hc hi⟩
    · refine ⟨_, _, .exists_ ?_ ?_⟩
      · cases h : a.clobber with
        | true => exact absurd (.inl h) hc
        | false => rfl
      · exact fun h => hc (.inr h)
  · intro hc hne ord ho
    obtain ⟨res, hr⟩ := C66_merge b τ (mergerOf micros a ord) ((fs.put a.output []).files sched) (by
      intro p f hf
      obtain ⟨c, _, rfl⟩ := Option.map_eq_some_iff.1 hf
      exact hs p c)
    exact ⟨res, hr, .ran hc ho hne hr⟩

/-! ## C65 -/

/-- `ccsds framing` is refused exactly if the block length, from the configuration file if there is one, is 0. -/
theorem C65_refused (b : Build) (k : Codec) (a : Framing.Args) (cfg : Option FramingConfig) (workers : Nat) (r : Reader) :
    FramingRun b k a cfg workers r none ↔ (match cfg with | some c => c.length | none => a.length) = 0 := by
  have e : ((cfg.map (withConfig a)).getD a).length = (match cfg with | some c => c.length | none => a.length) := by
    cases cfg with
    | none => rfl
    | some c =>
      simp only [Option.map_some, Option.getD_some]
      unfold withConfig
      cases c.rs <;> rfl
  rw [← e]
  constructor
  · intro h
    generalize ho : (none : Option (Framing.Summary × List (List U8))) = o at h
    cases h with
    | zeroLength h => exact h
    | ran => cases ho
  · exact .zeroLength

/-- Otherwise it runs, with the arguments the configuration file changes, and ends as that run ends. -/
theorem C65_accepted (b : Build) (k : Codec) (a : Framing.Args) (cfg : Option FramingConfig) (workers : Nat) (r : Reader) (s : Framing.Summary) (w : List (List U8)) :
    FramingRun b k a cfg workers r (some (s, w)) ↔ (match cfg with | some c => c.length | none => a.length) ≠ 0 ∧
      Framing.Runs b k (match cfg with | some c => withConfig a c | none => a) workers r s w := by
  cases cfg with
  | none =>
    exact ⟨fun h => by cases h with | ran h1 h2 => exact ⟨h1, h2⟩, fun h => .ran h.1 h.2⟩
  | some c =>
    have e : (withConfig a c).length = c.length := by unfold withConfig; cases c.rs <;> rfl
    exact ⟨fun h => by cases h with | ran h1 h2 => exact ⟨fun h0 => h1 (e.trans h0), h2⟩, fun h => .ran (fun h0 => h.1 (e.symm.trans h0)) h.2⟩

/-! ## C22 -/

omit [DecidableEq Path] in
/-- The second pass of `merge`, over whatever the files hold by then: on success, every group of the index was written with exactly the size it had when it
was indexed; on an error, the groups before the one that can no longer be read in full were, and nothing of that one. -/
theorem C22_no_partial_group (files : Path → Option MFile) (ps : List (Ptr Path)) (out : List (List U8)) :
    (∀ w, Merger.emit files ps out = .ok w → ∃ bufs, w = out ++ bufs ∧ bufs.map List.length = ps.map (·.size)) ∧
    (∀ w, Merger.emit files ps out = .error w → ∃ bufs qs p f, ps = qs ++ p :: (ps.drop (qs.length + 1)) ∧ w = out ++ bufs ∧ bufs.map List.length = qs.map (·.size) ∧
      files p.path = some f ∧ 0 < p.size ∧ f.content.length < p.offset + p.size) := by
  induction ps generalizing out with
  | nil =>
    refine ⟨fun w h => ?_, fun w h => ?_⟩
    · simp only [Merger.emit, Merger.MResult.ok.injEq] at h
      exact ⟨[], by simp [h], rfl⟩
    · simp [Merger.emit] at h
  | cons p ps ih =>
    refine ⟨fun w h => ?_, fun w h => ?_⟩
    · rw [Merger.emit] at h
      cases hf : files p.path with
      | none => rw [hf] at h; cases h
      | some f =>
        rw [hf] at h
        simp only [] at h
        split at h
        · cases h
        · rename_i hl
          obtain ⟨bufs, e1, e2⟩ := (ih _).1 w h
          refine ⟨_ :: bufs, by rw [e1, List.append_assoc]; rfl, ?_⟩
          simp only [List.map_cons, e2, List.cons.injEq, and_true]
          simp only [List.length_take, List.length_drop] at hl ⊢
          omega
    · rw [Merger.emit] at h
      cases hf : files p.path with
      | none => rw [hf] at h; cases h
      | some f =>
        rw [hf] at h
        simp only [] at h
        split at h
        · rename_i hl
          cases h
          simp only [List.length_take, List.length_drop] at hl
          exact ⟨[], [], p, f, by simp, by simp, rfl, hf, by omega, by omega⟩
        · rename_i hl
          obtain ⟨bufs, qs, q, g, e1, e2, e3, e4⟩ := (ih _).2 w h
          refine ⟨_ :: bufs, p :: qs, q, g, ?_, by rw [e2, List.append_assoc]; rfl, ?_, e4⟩
          · rw [List.cons_append, List.length_cons, List.drop_succ_cons, ← e1]
          · simp only [List.map_cons, e3, List.cons.injEq, and_true]
            simp only [List.length_take, List.length_drop] at hl ⊢
            omega

/-- An input of 5 bytes from which two groups of 4 bytes were indexed (it was cut since then): the second is not written. -/
example : Merger.emit (fun _ : Nat => some ⟨[1#8, 2#8, 3#8, 4#8, 5#8], ⟨[], .eof⟩⟩)
    [⟨0, 0, 4, ⟨.utc, 0⟩, 1, 0, 1⟩, ⟨0, 4, 4, ⟨.utc, 1⟩, 1, 1, 1⟩] [] = .error [[1#8, 2#8, 3#8, 4#8]] := rfl

/-- The hypotheses are met: a refused output, arguments under which the filter runs, and a merge. -/
example (b : Build) (st : Status) (fs' : FS Nat) :
    (FilterRun b FilterEx.tau RangesEx.ascii CommandEx.sched CommandEx.refused CommandEx.disk st fs' ↔ st = .error ∧ fs' = CommandEx.disk) ∧
    ∃ res, FilterRun b FilterEx.tau RangesEx.ascii CommandEx.sched CommandEx.fine CommandEx.disk (filterEnd res).1 (CommandEx.disk.put 2 (filterEnd res).2.flatten) := by
  refine ⟨C62_filter_refused b _ _ _ _ _ _ _ rfl (by decide), ?_⟩
  obtain ⟨res, _, h⟩ := (C66_filter_command b FilterEx.tau RangesEx.ascii CommandEx.sched CommandEx.fine CommandEx.disk (by
    intro p c
    unfold CommandEx.sched
    split <;> rfl)).2 (.inr rfl) FilterEx.early rfl (by decide) _ _ CommandEx.parse1 CommandEx.parse0
  exact ⟨res, h⟩

end Ccsds
