import Verif.Props.ConcatFrames
import Verif.Props.Rollover
import Verif.Props.Transmitter
import Verif.Props.Spoil
/-!
# Concrete cases: recordings, rollover, encoder

Each theorem of `Props/ConcatFrames`, `Props/Rollover`, `Props/Transmitter` and `Props/Spoil` that has hypotheses and is not applied beside its proof, applied to concrete data that
meets them. Where `example` is followed directly by `:=`, its statement is that of the theorem at these arguments.
-/
namespace Ccsds.Cases.Links
open Spec Pipeline

/-! ## C106 -/

example (a c j : List (Except Error Block)) (ea ec ej : Option Sync.Iter) (ha : Collects Sync.next (Sync.iter ⟨[.data exRecA], .eof⟩ Sync.ASM 8) a ea)
    (hc : Collects Sync.next (Sync.iter ⟨[.data exRecB], .eof⟩ Sync.ASM 8) c ec) (hj : Collects Sync.next (Sync.iter ⟨[.data (exRecA ++ exRecB)], .eof⟩ Sync.ASM 8) j ej) :=
  C106_synchronize _ _ _ exRecA exRecB Sync.ASM 8 (oneChunk_smooth _ (by simp [exRecA])) (oneChunk_smooth _ (by simp [exRecB])) (oneChunk_smooth _ (by simp [exRecA])) (by decide) [0]
    exRecA_ends.1 0 rfl (by decide) a c j ea ec ej ha hc hj

/-! ## C34, C115, C116: the three frames of `Roll`, whose counters roll over -/

/-- Counters 7 and 9: one frame is missing. -/
example (b : Build) : ∃ m, missingFrames b 9#32 7#32 = .ret m ∧ (m = 0#32 ↔ False) := by
  have h : missingFrames b 9#32 7#32 = .ret 1#32 := by obtain ⟨c⟩ := b; cases c <;> decide +kernel
  exact ⟨_, h, by rw [C34_zero b 9#32 7#32 1#32 (by decide) (by decide) h]; decide⟩

open Pipeline in
example (b : Build) (hb : b.overflowChecks = false) : ∃ s, Runs b (bddCodec Roll.code) ⟨false, some (Roll.opts, ⟨4, 2⟩), 255⟩ ⟨[.data Roll.wholeStream], .eof⟩ s ∧ s.got.length = 3 := by
  obtain ⟨hi, hx⟩ := C115_exact b _ _ Roll.bounded false Roll.opts ⟨4, 2⟩ (by decide) (by decide) rfl _ _ 255 _ [] Roll.whole
    (Roll.smooth Roll.wholeStream (Roll.ne _ (by simp))) (Roll.carries _ (by decide +kernel)) rfl (Roll.lossy _ (.inl rfl)) 0 0 (by decide)
  obtain ⟨s, hs, hend⟩ := (hx _ hi).2.1 (by decide) (by decide)
  obtain ⟨h, _⟩ := C115_partial b hb _ _ Roll.bounded false Roll.opts ⟨4, 2⟩ (by decide) (by decide) rfl _ _ 255 _ [] Roll.whole
    (Roll.smooth Roll.wholeStream (Roll.ne _ (by simp))) (Roll.carries _ (by decide +kernel)) rfl (Roll.lossy _ (.inl rfl)) (Roll.readable _ (.inl rfl)) 0 0 (by decide) s hs hend
  exact ⟨s, hs, h⟩

open Pipeline in
/-- The second frame is lost. -/
example (b : Build) : ∃ s outs, Runs b (bddCodec Roll.code) ⟨false, some (Roll.opts, ⟨4, 2⟩), 255⟩ ⟨[.data Roll.holedStream], .eof⟩ s ∧
    ByFrame 0 0 s.got outs := by
  obtain ⟨hi, hx⟩ := C115_exact b _ _ Roll.bounded false Roll.opts ⟨4, 2⟩ (by decide) (by decide) rfl _ _ 255 _ [] Roll.holed
    (Roll.smooth Roll.holedStream (Roll.ne _ (by simp))) (Roll.carries _ (by decide +kernel)) rfl (Roll.lossy _ (.inr rfl)) 0 0 (by decide)
  obtain ⟨s, hs, hend⟩ := (hx _ hi).2.1 (by decide) (by decide)
  obtain ⟨outs, _, h, _⟩ := C116_partial b _ _ Roll.bounded false Roll.opts ⟨4, 2⟩ (by decide) (by decide) rfl _ _ 255 _ [] Roll.holed
    (Roll.smooth Roll.holedStream (Roll.ne _ (by simp))) (Roll.carries _ (by decide +kernel)) rfl (Roll.lossy _ (.inr rfl)) 0 0 (by decide) s hs hend
  exact ⟨s, outs, hs, h⟩

/-! ## C114, C117 -/

open Spec.Transmitter in
example (u : List U8) := C114_encoder (List.replicate 223 7#8) List.length_replicate u
example := C117_far (List.replicate 223 7#8) List.length_replicate

end Ccsds.Cases.Links
