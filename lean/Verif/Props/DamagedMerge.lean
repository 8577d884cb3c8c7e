import Verif.Props.HeaderDamage
import Verif.Props.WhichCopy
/-!
# C110 for `merge`: damaged inputs
-/
namespace Ccsds
open Spec Merger

theorem Pairs.mem_right {α : Type} {R : α → α → Prop} : ∀ {l l' : List α}, Pairs R l l' → ∀ x ∈ l, ∃ y ∈ l', R x y := by
  intro l
  induction l with
  | nil => intro l' _ x hx; cases hx
  | cons a l ih =>
    intro l' h x hx
    cases l' with
    | nil => exact h.elim
    | cons c l' =>
      rcases List.mem_cons.1 hx with rfl | hx
      · exact ⟨c, by simp, h.1⟩
      · obtain ⟨y, hy, hr⟩ := ih h.2 x hx
        exact ⟨y, by simp [hy], hr⟩

/-- A packet of which no byte is damaged stays what it is. -/
theorem SameButData.eq_of_untouched {bs bs' : List U8} {p p' : Packet} (h : SameButData bs bs' p p') (hu : Untouched bs bs' p) : p' = p := by
  have hdata : p'.data = p.data := by
    refine List.ext_getElem? fun j => ?_
    by_cases hj : j < p.data.length
    · refine Decidable.byContradiction fun hne => h.bytes j (fun e => hne e.symm) (hu _ (by omega) (by omega))
    · rw [List.getElem?_eq_none (by have := h.length; omega), List.getElem?_eq_none (by omega)]
  obtain ⟨ph, pd, po⟩ := p
  obtain ⟨ph', pd', po'⟩ := p'
  have h1 := h.header
  have h2 := h.offset
  simp only at h1 h2 hdata
  rw [h1, h2, hdata]

theorem pairs_untouched {bs bs' : List U8} : ∀ {l l' : List Packet}, Pairs (SameButData bs bs') l l' → (∀ p ∈ l, Untouched bs bs' p) → l' = l := by
  intro l
  induction l with
  | nil => intro l' h _; cases l' <;> first | rfl | exact h.elim
  | cons p l ih =>
    intro l' h hu
    cases l' with
    | nil => exact h.elim
    | cons p' l' => rw [h.1.eq_of_untouched (hu p (by simp)), ih h.2 fun q hq => hu q (by simp [hq])]

section Merging
variable {Path : Type} [DecidableEq Path]

/-- Each file of `files'` is that of `files` with damage behind the primary headers of its packets. -/
def DamagedFiles (files files' : Path → Option MFile) : Prop :=
  ∀ p f, files p = some f → ∃ f', files' p = some f' ∧ ∃ ps, Decodes f.reader ps ∧ DamagedData f.content f'.content ps

/-- No byte of the group is damaged. -/
def UntouchedGroup (files files' : Path → Option MFile) (e : Entry Path) : Prop :=
  ∀ f f', files e.path = some f → files' e.path = some f' → ∀ p ∈ e.group.packets, Untouched f.content f'.content p

omit [DecidableEq Path] in
/-- A group that is not hit is a group of the damaged file too. -/
theorem untouched_input {b : Build} {τ : Epoch → Int} {m : Merger Path} {files files' : Path → Option MFile} (hfiles : Readable files) (hfiles' : Readable files')
    (hdam : DamagedFiles files files') {e : Entry Path} (he : Inputs b τ m files e) (hu : UntouchedGroup files files' e) : Inputs b τ m files' e := by
  obtain ⟨hp, f, gs, hf, hg, hmem, hel⟩ := he
  obtain ⟨f', hf', ps, hps, hx⟩ := hdam _ f hf
  have hgo : GroupsOf ps gs := by
    obtain ⟨qs, s, s', c1, c2⟩ := hg
    obtain ⟨t, c3⟩ := hps
    obtain rfl := map_ok_inj (c1.unique c3).1
    exact ⟨_, c2⟩
  obtain ⟨ps', gs', h1, h2, h3⟩ := C110_groups _ _ _ _ (hfiles _ f hf) (hfiles' _ f' hf') ps hps hx gs hgo
  obtain ⟨g', hg', hs⟩ := h3.mem_right _ hmem
  have hgg : g' = e.group := by
    have := pairs_untouched hs.packets (hu f f' hf hf')
    have ha := hs.apid
    obtain ⟨a, l⟩ := g'
    simp only at this ha
    rw [this, ha]
  obtain ⟨s, hs1⟩ := h1
  obtain ⟨s', hs2⟩ := h2
  exact ⟨hp, f', gs', hf', ⟨ps', s, s', hs1, hs2⟩, hgg ▸ hg', hel⟩

/-- C110, `merge`: when inputs are damaged behind the primary headers, every group that is not hit and that was to be merged still has its key (APID, sequence id and time) in the
merged file, and its bytes are in it unless a damaged group of some input has taken on the same key with other bytes (see C138 for which of the two is written then). -/
theorem C110_merge (b : Build) (τ : Epoch → Int) (m : Merger Path) (files files' : Path → Option MFile) (hfiles : Readable files) (hfiles' : Readable files')
    (hdam : DamagedFiles files files') (out' : List (List U8)) (h : Merges b τ m files' (.ok out')) :
    ∃ es', IsMerge b τ m files' out' es' ∧ ∀ e, Inputs b τ m files e → UntouchedGroup files files' e →
      e.key τ ∈ es'.map (Entry.key τ) ∧ (e.bytes ∈ out' ∨ ∃ x ∈ es', x.key τ = e.key τ ∧ x.bytes ≠ e.bytes) := by
  obtain ⟨es', hm⟩ := C21_merge b τ m files' hfiles' out' h
  refine ⟨es', hm, fun e he hu => ?_⟩
  have hk := hm.complete e (untouched_input hfiles hfiles' hdam he hu)
  refine ⟨hk, ?_⟩
  obtain ⟨x, hx, hxk⟩ := List.mem_map.1 hk
  by_cases hb : x.bytes = e.bytes
  · left
    rw [hm.bytes, ← hb]
    exact List.mem_map_of_mem hx
  · exact .inr ⟨x, hx, hxk, hb⟩

end Merging

/-! The last byte of the first packet is damaged: the second packet still comes out. -/
namespace DamagedMergeEx
open AgreeEx (first gFirst)
open FMEx MergeCheckEx WhichCopyEx

def original : Nat → Option MFile
  | 0 => some (MergeEx.file (copy 1#8 ++ first))
  | 1 => some (MergeEx.file (copy 0#8))
  | _ => none

theorem readableO : Readable original := by
  intro p f hf
  match p, hf with
  | 0, hf => cases hf; exact FuseEx.delivers (by decide)
  | 1, hf => cases hf; exact FuseEx.delivers (by decide)

theorem groupsO : FileGroups (MergeEx.file (copy 1#8 ++ first)) [gCopy 1#8, gFirst 15] :=
  ⟨[copyPkt 1#8, pkt 1#8 2#8 0xc0#8 0#8 15], _, _, .step rfl (.step rfl (.done rfl)), .step rfl (.step rfl (.done rfl))⟩

theorem damaged : DamagedFiles original files := by
  intro p f hf
  match p, hf with
  | 0, hf =>
    cases hf
    refine ⟨_, rfl, [copyPkt 1#8, pkt 1#8 2#8 0xc0#8 0#8 15], ⟨_, .step rfl (.step rfl (.done rfl))⟩, rfl, fun i hi => ⟨copyPkt 1#8, by simp, ?_⟩⟩
    have key : ∀ i, i < 29 → (copy 1#8 ++ first)[i]? ≠ (copy 0xff#8 ++ first)[i]? → i = 14 := by decide +kernel
    have h14 : i = 14 := by
      by_cases h29 : i < 29
      · exact key i h29 hi
      · exact absurd (by rw [List.getElem?_eq_none (by exact Nat.not_lt.1 h29), List.getElem?_eq_none (by exact Nat.not_lt.1 h29)]) hi
    subst h14
    decide +kernel
  | 1, hf =>
    cases hf
    exact ⟨_, rfl, [copyPkt 0#8], ⟨_, .step rfl (.done rfl)⟩, rfl, fun i hi => absurd rfl hi⟩

theorem isOtherO (b : Build) : Inputs b MergeEx.tau merger original ⟨0, gFirst 15, time 1⟩ :=
  ⟨by simp [merger, mergerOf], _, _, rfl, groupsO, by simp, _, _, rfl, .inr (by rfl), decFirst b 15, since1, before1, .inl rfl⟩

theorem untouchedOther : UntouchedGroup original files ⟨0, gFirst 15, time 1⟩ := by
  intro f f' hf hf' p hp i h1 h2
  cases hf
  cases hf'
  obtain rfl := List.mem_singleton.1 hp
  have key : ∀ i, i < 29 → 15 ≤ i → (copy 1#8 ++ first)[i]? = (copy 0xff#8 ++ first)[i]? := by decide +kernel
  exact key i h2 h1

example (b : Build) (out' : List (List U8)) (h : Merges b MergeEx.tau merger files (.ok out')) : first ∈ out' := by
  obtain ⟨es', hm, hall⟩ := C110_merge b MergeEx.tau merger original files readableO readable damaged out' h
  rcases (hall _ (isOtherO b) untouchedOther).2 with h | ⟨x, hx, hk, hb⟩
  · exact h
  · have hin := hm.inputs x hx
    have hp : x.path = 1 ∨ x.path = 0 := by simpa [merger, mergerOf] using hin.1
    rcases hp with hp | hp
    · rw [inputs1 hin hp] at hk
      exact absurd hk (by decide)
    · rcases inputs0 hin hp with rfl | rfl
      · exact absurd hk (by decide)
      · exact absurd rfl hb

end DamagedMergeEx
end Ccsds
