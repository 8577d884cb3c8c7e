import Verif.Props.MergeCommand
import Verif.Props.Filter
/-!
# C86: `--from`, `--to` and `--apids` of `ccsds merge` mean what their help texts say
-/
namespace Ccsds
open Cmd Spec Merger
variable {Path : Type} [DecidableEq Path]

/-! ## Specification -/

/-- `e` is a group of one of the inputs that begins with a packet flagged FIRST or UNSEGMENTED with the CDS time `e.time`. -/
def TimedGroup (inputs : List Path) (files : Path → Option MFile) (e : Entry Path) : Prop :=
  e.path ∈ inputs ∧ ∃ f gs first rest, files e.path = some f ∧ FileGroups f gs ∧ e.group ∈ gs ∧ e.group.packets = first :: rest ∧
    (first.header.sequenceFlags.toNat = 1 ∨ first.header.sequenceFlags.toNat = 3) ∧ cdsTime first = some e.time

/-- main.rs:95-105, the help texts: `--from` "Drop any packets with a time before this time", `--to` "Drop any packets with a time after this time",
`--apids` "Drop any packet that has an APID not in this list" (without the option all APIDs are kept). -/
def KeptPerMergeHelp (τ : Epoch → Int) (a : MergeArgs Path) (e : Entry Path) : Prop :=
  (∀ t, a.from? = some t → ¬ τ e.time < τ t) ∧ (∀ t, a.to? = some t → ¬ τ t < τ e.time) ∧ (a.apids = [] ∨ e.apid ∈ a.apids)

/-- `out` is made of groups with times; those that satisfy `kept`, and no others, are there, themselves or a copy (a group of equal APID, sequence
number and time). -/
def Selects (τ : Epoch → Int) (inputs : List Path) (files : Path → Option MFile) (kept : Entry Path → Prop) (out : List U8) : Prop :=
  ∃ entries : List (Entry Path), out = entries.flatMap Entry.bytes ∧ (∀ e ∈ entries, TimedGroup inputs files e) ∧
    ∀ e, TimedGroup inputs files e → (e.key τ ∈ entries.map (Entry.key τ) ↔ kept e)

/-- The instants given are whole microseconds of UTC, exactly converted. -/
def ExactMicros (τ : Epoch → Int) (micros : Epoch → Nat) (a : MergeArgs Path) : Prop :=
  ∀ t, a.from? = some t ∨ a.to? = some t → τ ⟨.utc, micros t * 1000⟩ = τ t

/-- Full statement. -/
def C86_full : Prop :=
  ∀ (b : Build) (τ : Epoch → Int) (micros : Epoch → Nat) (sched : Nat → List U8 → Reader) (a : MergeArgs Nat) (fs fs' : FS Nat),
    (∀ x y, x < y → τ ⟨.utc, x⟩ < τ ⟨.utc, y⟩) → ExactMicros τ micros a → Faithful sched → a.output ∉ a.inputs → MergeRun b τ micros sched a fs .ok fs' →
    ∃ out, fs' = fs.put a.output out ∧ Selects τ a.inputs (fs.files sched) (KeptPerMergeHelp τ a) out

/-! ## Proofs -/

theorem cds_decode_iff (b : Build) (p : Packet) (t : Epoch) : (TimecodeDecoder.new (.cds 2 2)).decode b p = .ret (.ok t) ↔ cdsTime p = some t := by
  by_cases hl : 6 ≤ p.data.length
  · obtain ⟨h1, h2⟩ := decoder_decode b p hl
    constructor
    · intro h
      cases hc : cdsTime p with
      | none =>
        obtain ⟨e, he⟩ := h2 hc
        have : (TimecodeDecoder.new (.cds 2 2)).decode b p = .ret (.error e) := he
        rw [h] at this
        cases this
      | some u =>
        have : (TimecodeDecoder.new (.cds 2 2)).decode b p = .ret (.ok u) := h1 u hc
        rw [h] at this
        cases this
        rfl
    · intro h; exact h1 t h
  · have e : (TimecodeDecoder.new (.cds 2 2)).decode b p = .panic := by
      have := C19_decode b (.cds 2 2) [] p
      rw [if_pos (by omega)] at this
      exact this
    rw [e, cdsTime, if_pos (by omega)]
    simp

/-- A CDS time lies between 1900 and 2200. -/
theorem cds_window {τ : Epoch → Int} (hτ : ∀ x y, x < y → τ ⟨.utc, x⟩ < τ ⟨.utc, y⟩) {p : Packet} {t : Epoch} (h : cdsTime p = some t) :
    τ ⟨.utc, 0⟩ ≤ τ t ∧ τ t < τ ⟨.utc, 109573 * 86400 * 1000000000⟩ := by
  unfold cdsTime at h
  split at h
  · cases h
  · cases h
    have f1 := field_lt (p.data.drop 6) 0 16
    have f2 := field_lt (p.data.drop 6) 16 32
    have f3 := field_lt (p.data.drop 6) 48 16
    have hd : daysTo1958 = 21184 := by decide +kernel
    unfold cdsInstant
    rw [hd]
    constructor
    · exact Int.le_of_lt (hτ _ _ (by omega))
    · exact hτ _ _ (by omega)

omit [DecidableEq Path] in
theorem isInput_iff (b : Build) {τ : Epoch → Int} (hτ : ∀ x y, x < y → τ ⟨.utc, x⟩ < τ ⟨.utc, y⟩) {micros : Epoch → Nat} {a : MergeArgs Path}
    (hx : ExactMicros τ micros a) (files : Path → Option MFile) (e : Entry Path) :
    IsInput b τ (TimecodeDecoder.new (.cds 2 2)) (windowFrom micros a) (windowTo micros a) a.apids a.inputs files e ↔
      TimedGroup a.inputs files e ∧ KeptPerMergeHelp τ a e ∧ ∀ t, a.to? = some t → τ e.time ≠ τ t := by
  have hap : ∀ first rest, e.group.packets = first :: rest → e.apid = first.header.apid := fun first rest h => by rw [Entry.apid, h]
  constructor
  · rintro ⟨p1, f, gs, p2, p3, p4, first, rest, q1, q2, q3, q4, q5, q6⟩
    have hc := (cds_decode_iff b first e.time).1 q3
    refine ⟨⟨p1, f, gs, first, rest, p2, p3, p4, q1, q2, hc⟩, ⟨?_, ?_, ?_⟩, ?_⟩
    · intro t ht
      rw [windowFrom, ht] at q4
      dsimp only at q4
      rw [hx t (.inl ht)] at q4
      omega
    · intro t ht
      rw [windowTo, ht] at q5
      dsimp only at q5
      rw [hx t (.inr ht)] at q5
      omega
    · rw [hap _ _ q1]; exact q6
    · intro t ht
      rw [windowTo, ht] at q5
      dsimp only at q5
      rw [hx t (.inr ht)] at q5
      omega
  · rintro ⟨⟨p1, f, gs, first, rest, p2, p3, p4, q1, q2, hc⟩, ⟨k1, k2, k3⟩, k4⟩
    have hw := cds_window hτ hc
    refine ⟨p1, f, gs, p2, p3, p4, first, rest, q1, q2, (cds_decode_iff b first e.time).2 hc, ?_, ?_, ?_⟩
    · unfold windowFrom
      cases ht : a.from? with
      | none => exact hw.1
      | some t =>
        have := k1 t ht
        dsimp only
        rw [hx t (.inl ht)]
        omega
    · unfold windowTo
      cases ht : a.to? with
      | none => exact hw.2
      | some t =>
        have := k2 t ht
        have := k4 t ht
        dsimp only
        rw [hx t (.inr ht)]
        omega
    · rw [← hap _ _ q1]; exact k3

/-- What holds: the groups kept are those of the help texts except those with exactly the time of `--to`, which are dropped too. -/
theorem C86_partial (b : Build) (τ : Epoch → Int) (micros : Epoch → Nat) (sched : Path → List U8 → Reader) (hs : Faithful sched) (a : MergeArgs Path)
    (fs fs' : FS Path) (hτ : ∀ x y, x < y → τ ⟨.utc, x⟩ < τ ⟨.utc, y⟩) (hx : ExactMicros τ micros a) (hio : a.output ∉ a.inputs)
    (h : MergeRun b τ micros sched a fs .ok fs') :
    ∃ out, fs' = fs.put a.output out ∧
      Selects τ a.inputs (fs.files sched) (fun e => KeptPerMergeHelp τ a e ∧ ∀ t, a.to? = some t → τ e.time ≠ τ t) out := by
  obtain ⟨ord, w, ho, hm, rfl⟩ := C64_merge_partial b τ micros sched a fs fs' hio h
  have hr := files_readable fs sched hs
  obtain ⟨es, he⟩ := C21_merge b τ _ _ hr w hm
  obtain ⟨f1, f2, f3, f4, f5, _⟩ := mergerOf_fields micros a ord
  have hin : ∀ e, Inputs b τ (mergerOf micros a ord) (fs.files sched) e ↔
      TimedGroup a.inputs (fs.files sched) e ∧ KeptPerMergeHelp τ a e ∧ ∀ t, a.to? = some t → τ e.time ≠ τ t := by
    intro e
    unfold Inputs
    rw [f1, f2, f3, f4, f5]
    exact isInput_iff b hτ hx _ e
  refine ⟨_, rfl, es, by rw [he.bytes, List.flatMap_def], fun e h => ((hin e).1 (he.inputs e h)).1, ?_⟩
  intro e ht
  constructor
  · intro hk
    obtain ⟨x, hxm, hkey⟩ := List.mem_map.1 hk
    obtain ⟨hxt, hk1, hk2⟩ := (hin x).1 (he.inputs x hxm)
    -- equal keys: equal time and APID
    simp only [Entry.key, Prod.mk.injEq] at hkey
    have htime : τ x.time = τ e.time := hkey.2
    have hapid : x.apid = e.apid := by
      obtain ⟨_, _, _, fx, rx, _, _, _, gx, _⟩ := hxt
      obtain ⟨_, _, _, fe, re, _, _, _, ge, _⟩ := ht
      have := hkey.1
      simp only [gx, ge, List.head?_cons, Option.map_some, Option.some.injEq, Prod.mk.injEq] at this
      rw [Entry.apid, Entry.apid, gx, ge]
      exact this.1
    unfold KeptPerMergeHelp at hk1 ⊢
    rw [htime, hapid] at hk1
    rw [htime] at hk2
    exact ⟨hk1, hk2⟩
  · intro hk
    exact he.complete e ((hin e).2 ⟨ht, hk⟩)

/-- Without `--to` the help texts describe exactly what is kept. -/
theorem C86_without_to (b : Build) (τ : Epoch → Int) (micros : Epoch → Nat) (sched : Path → List U8 → Reader) (hs : Faithful sched) (a : MergeArgs Path)
    (fs fs' : FS Path) (hτ : ∀ x y, x < y → τ ⟨.utc, x⟩ < τ ⟨.utc, y⟩) (hx : ExactMicros τ micros a) (hio : a.output ∉ a.inputs) (hto : a.to? = none)
    (h : MergeRun b τ micros sched a fs .ok fs') :
    ∃ out, fs' = fs.put a.output out ∧ Selects τ a.inputs (fs.files sched) (KeptPerMergeHelp τ a) out := by
  obtain ⟨out, h1, es, h2, h3, h4⟩ := C86_partial b τ micros sched hs a fs fs' hτ hx hio h
  refine ⟨out, h1, es, h2, h3, fun e he => (h4 e he).trans ⟨fun k => k.1, fun k => ⟨k, ?_⟩⟩⟩
  intro t ht
  rw [hto] at ht
  cases ht

/-! A packet at exactly the time given with `--to`. -/
namespace MergeHelpEx

def content : List U8 := MergeCmdEx.bytes 0x3a#8
def disk : FS Nat := fun p => if p = 0 then some content else none
def args : MergeArgs Nat := ⟨[0], 1, false, none, none, none, some MergeEx.time, []⟩

theorem groups : FileGroups (MergeEx.file content) [⟨826#16, [MergeCmdEx.pkt 0x3a#8 0]⟩] :=
  ⟨[MergeCmdEx.pkt 0x3a#8 0], _, _, .step rfl (.done rfl), .step rfl (.done rfl)⟩

theorem loop (b : Build) : (mergerOf MergeCmdEx.micros args []).pointersLoop b MergeEx.tau 0 [⟨826#16, [MergeCmdEx.pkt 0x3a#8 0]⟩] [] = .ret [] := by
  cases b with | mk o => cases o <;> rfl

theorem merges (b : Build) : Merges b MergeEx.tau (mergerOf MergeCmdEx.micros args []) (MergeEx.files content) (.ok []) := by
  have hidx : Index b MergeEx.tau (mergerOf MergeCmdEx.micros args []) (MergeEx.files content) [0] [] (some []) :=
    .step (f := MergeEx.file content) rfl (MergeEx.pointers_of groups (loop b)) (List.Perm.refl _) (List.Perm.refl _) .done
  have := Merges.finished (idx' := []) (m := mergerOf MergeCmdEx.micros args []) (files := MergeEx.files content)
    (by intro p hp; have hp : p ∈ [0] := hp; simp at hp; subst hp; simp [MergeEx.files]) (List.Perm.refl _) hidx (List.Perm.refl _)
  simpa [emit] using this

theorem run (b : Build) : MergeRun b MergeEx.tau MergeCmdEx.micros CommandEx.sched args disk .ok (disk.put 1 []) := by
  have := MergeRun.ran (b := b) (τ := MergeEx.tau) (micros := MergeCmdEx.micros) (sched := CommandEx.sched) (a := args) (fs := disk) (ord := []) (.inr rfl) rfl (by decide)
    (merges_congr (files' := (disk.put args.output []).files CommandEx.sched) (by
      intro p hp
      have : p = 0 := by simpa [mergerOf, args, Merger.withApids, Merger.withApidOrder, Merger.new, Merger.withTo] using hp
      subst this
      rfl) (merges b))
  simpa [mergeEnd, args] using this

theorem mono : ∀ x y : Nat, x < y → MergeEx.tau ⟨.utc, x⟩ < MergeEx.tau ⟨.utc, y⟩ := by
  intro x y h
  show (x : Int) < (y : Int)
  omega

theorem exact_ : ExactMicros MergeEx.tau MergeCmdEx.micros args := by
  intro t ht
  have : t = MergeEx.time := by
    rcases ht with ht | ht <;> simp [args] at ht
    exact ht.symm
  subst this
  rfl

theorem timed : TimedGroup args.inputs (disk.files CommandEx.sched) ⟨0, ⟨826#16, [MergeCmdEx.pkt 0x3a#8 0]⟩, MergeEx.time⟩ :=
  ⟨by decide, _, _, _, _, rfl, groups, by simp, rfl, .inr rfl, by decide +kernel⟩

end MergeHelpEx

open MergeHelpEx in
/-- The packet is not after `--to`, yet it is dropped. -/
theorem C86_violated : ¬ C86_full := by
  intro h
  obtain ⟨out, h1, es, h2, h3, h4⟩ := h ⟨true⟩ _ _ _ _ _ _ mono exact_ CommandEx.faithful (by decide) (run _)
  have hb := congrFun h1 1
  simp only [FS.put, args, if_true, Option.some.injEq] at hb
  have hk := (h4 _ timed).2 ⟨by simp [args], by simp [args], .inl rfl⟩
  obtain ⟨x, hx, _⟩ := List.mem_map.1 hk
  have hne : x.bytes ≠ [] := by
    obtain ⟨_, _, gs, first, rest, p2, p3, p4, p5, _⟩ := h3 x hx
    intro hnil
    have : first.data = [] := by
      rw [Entry.bytes, p5, List.flatMap_cons, List.append_eq_nil_iff] at hnil
      exact hnil.1
    obtain ⟨_, _, _, first', rest', _, _, _, p5', _, hc⟩ := h3 x hx
    rw [p5] at p5'
    cases p5'
    rw [cdsTime, if_pos (by rw [this]; decide)] at hc
    cases hc
  apply hne
  rw [← hb] at h2
  have := List.flatMap_eq_nil_iff.1 h2.symm x hx
  exact this

/-- The run above meets the hypotheses of `C86_partial`. -/
example (b : Build) : ∃ out, MergeHelpEx.disk.put 1 [] = MergeHelpEx.disk.put MergeHelpEx.args.output out ∧
    Selects MergeEx.tau [0] (MergeHelpEx.disk.files CommandEx.sched)
      (fun e => KeptPerMergeHelp MergeEx.tau MergeHelpEx.args e ∧ ∀ t, MergeHelpEx.args.to? = some t → MergeEx.tau e.time ≠ MergeEx.tau t) out :=
  C86_partial b _ _ _ CommandEx.faithful MergeHelpEx.args _ _ MergeHelpEx.mono MergeHelpEx.exact_ (by decide) (MergeHelpEx.run b)

end Ccsds
