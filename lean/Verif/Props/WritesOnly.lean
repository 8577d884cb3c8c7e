import Verif.Props.Writes
import Verif.Props.Commands
/-!
# C62 with an output that can fail
-/
namespace Ccsds
open Cmd
variable {Path : Type} [DecidableEq Path]

/-- C62 for `ccsds filter`, whatever the writes do. -/
theorem C62_filter_writes (b : Build) (τ : Epoch → Int) (ud : Char → Bool) (sched : Path → List U8 → Reader) (a : FilterArgs Path) (fs fs' : FS Path)
    (s : List WEv) (st : Status) (h : FilterRunW b τ ud sched a fs s st fs') :
    (∀ p, p ≠ a.output → fs' p = fs p) ∧ (a.clobber = false → fs a.output ≠ none → fs' = fs ∧ st = .error) ∧
      (st = .ok → fs' a.output ≠ none) := by
  obtain ⟨st0, fs0, h0, hc⟩ := C77_filter b τ ud sched a fs fs' s st h
  obtain ⟨h1, h2, h3⟩ := C62_filter b τ ud sched a fs fs0 st0 h0
  refine ⟨fun p hp => (hc.others p hp).trans (h1 p hp), fun hf he => ?_, fun hok => ?_⟩
  · cases h with
    | exists_ => exact ⟨rfl, rfl⟩
    | noInput hx | createFails hx | badArgs hx | noFilters hx | ran hx =>
      rcases hx with hx | hx
      · rw [hf] at hx; cases hx
      · exact absurd hx he
  · rcases hc.status with ⟨rfl, rfl⟩ | ⟨rfl, _⟩
    · exact h3 hok
    · cases hok

/-- C62 for `ccsds merge`, whatever the writes do. -/
theorem C62_merge_writes (b : Build) (τ : Epoch → Int) (micros : Epoch → Nat) (sched : Path → List U8 → Reader) (a : MergeArgs Path) (fs fs' : FS Path)
    (s : List WEv) (st : Status) (h : MergeRunW b τ micros sched a fs s st fs') :
    (∀ p, p ≠ a.output → fs' p = fs p) ∧ (a.clobber = false → fs a.output ≠ none → fs' = fs ∧ st = .error) ∧
      (st = .ok → fs' a.output ≠ none) := by
  obtain ⟨st0, fs0, h0, hc⟩ := C77_merge b τ micros sched a fs fs' s st h
  obtain ⟨h1, h2, h3⟩ := C62_merge b τ micros sched a fs fs0 st0 h0
  refine ⟨fun p hp => (hc.others p hp).trans (h1 p hp), fun hf he => ?_, fun hok => ?_⟩
  · cases h with
    | exists_ => exact ⟨rfl, rfl⟩
    | badName hx | createFails hx | noInputs hx | ran hx =>
      rcases hx with hx | hx
      · rw [hf] at hx; cases hx
      · exact absurd hx he
  · rcases hc.status with ⟨rfl, rfl⟩ | ⟨rfl, _⟩
    · exact h3 hok
    · cases hok

/-- A run whose output fails at once: the filter has an input and an output to be created. -/
example (b : Build) (τ : Epoch → Int) (ud : Char → Bool) (sched : Nat → List U8 → Reader) (a : FilterArgs Nat) :
    FilterRunW b τ ud sched { a with clobber := false, output := 1, input := 0 } (fun p => if p = 0 then some [] else none) [] .error
      (fun p => if p = 0 then some [] else none) := .createFails (.inr rfl) (by simp)

end Ccsds
