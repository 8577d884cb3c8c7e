import Verif.Props.Merge
import Verif.Props.MergeCommand
import Verif.Props.MergeHelp
import Verif.Props.MergeParts
import Verif.Props.MergeSteps
import Verif.Props.FilterMerge
import Verif.Props.Order
import Verif.Props.Copying
import Verif.Props.Regroup
/-!
# Concrete cases: merging

Each theorem of `Props/Merge`, `Props/MergeCommand`, `Props/MergeHelp`, `Props/MergeParts`, `Props/MergeSteps`, `Props/FilterMerge`, `Props/Order`, `Props/Copying` and `Props/Regroup` that has hypotheses,
applied to concrete data that meets them. Where `example` is followed directly by `:=`, its statement is that of the theorem at these arguments.
-/
namespace Ccsds.Cases.Merge
open Spec Merger Cmd

/-- The file with APIDs 1 and 2 at the same time, merged with the order 1, 2. -/
def m12 : Merger Nat := MergeEx.merger.withApidOrder [1#16, 2#16]
theorem r12 : Readable (MergeEx.files MergeEx.f12) := MergeEx.readable _ (by decide)
theorem r11 : Readable (MergeEx.files MergeEx.f11) := MergeEx.readable _ (by decide)

/-! ## C20 to C25 -/

example (b : Build) := C21_merge b MergeEx.tau m12 _ r12 _ (MergeEx.merges12 b)
example (b : Build) := C20_sorted b MergeEx.tau m12 _ r12 _ (MergeEx.merges12 b)
example (b : Build) := C22_verbatim b MergeEx.tau m12 _ r12 _ (MergeEx.merges12 b)
example (b : Build) := C25_every_order b MergeEx.tau m12 _ r12 _ (MergeEx.merges12 b)
example (b : Build) := C24_partial b MergeEx.tau m12 _ r12 _ (MergeEx.merges12 b)
example (b : Build) := C23_partial b MergeEx.tau [0] MergeEx.dec [1#16, 2#16] _ r12 _ (by decide) (by decide) (MergeEx.merges12 b)

/-- Two groups of equal time and APID can be exchanged: the two outputs of `MergeEx`. -/
example (b : Build) := C25_swap b MergeEx.tau MergeEx.merger _ r11 _ (MergeEx.merges11 b)

/-- The input listed twice. -/
example (b : Build) (es es' : List (Entry Nat)) (out' : List (List U8))
    (h : IsMerge b MergeEx.tau MergeEx.merger (MergeEx.files MergeEx.f11) [MergeEx.bytes 1#8 0xc0#8 0#8, MergeEx.bytes 1#8 0xc0#8 1#8] es)
    (h' : IsMerge b MergeEx.tau { MergeEx.merger with paths := [0, 0] } (MergeEx.files MergeEx.f11) out' es') :
    (es.map (Entry.key MergeEx.tau)).Perm (es'.map (Entry.key MergeEx.tau)) :=
  C21_keys_invariant b MergeEx.tau MergeEx.merger { MergeEx.merger with paths := [0, 0] } _ (by intro p; simp [MergeEx.merger, Merger.new]) ⟨rfl, rfl, rfl, rfl⟩ _ _ _ _ h h'

example (b : Build) : ∃ es, IsMerge b MergeEx.tau MergeEx.merger (MergeEx.files MergeEx.f11) [MergeEx.bytes 1#8 0xc0#8 0#8, MergeEx.bytes 1#8 0xc0#8 1#8] es :=
  C21_merge b MergeEx.tau MergeEx.merger _ r11 _ (MergeEx.merges11 b)

/-- An input that cannot be opened, after one that can. -/
example (b : Build) : Merges b MergeEx.tau { MergeEx.merger with paths := [0, 1] } (MergeEx.files MergeEx.f11) (.error []) ∧
    ∀ w, Merges b MergeEx.tau { MergeEx.merger with paths := [0, 1] } (MergeEx.files MergeEx.f11) (.error w) → w = [] ∧ ∃ p ∈ [0, 1], MergeEx.files MergeEx.f11 p = none :=
  ⟨.openFails (p := 1) (by simp) rfl, fun w h => C21_error b MergeEx.tau { MergeEx.merger with paths := [0, 1] } _ r11 w h⟩

/-- No decoding of the two packets of `MergeEx.f12` panics. -/
theorem noPanic12 (b : Build) : ¬ FilePanics b MergeEx.dec (MergeEx.file MergeEx.f12) := by
  rintro (⟨items, h⟩ | ⟨gs, g, first, rest, h1, h2, h3, _, h4⟩)
  · have h' : Collects PacketDecoder.next (PacketDecoder.new (MergeEx.file MergeEx.f12).reader) _ (some _) :=
      .step (a := .ok (MergeEx.pkt 1#8 0xc0#8 0#8 0)) rfl (.step (a := .ok (MergeEx.pkt 2#8 0xc0#8 0#8 14)) rfl (.done rfl))
    cases (Collects.unique h h').2
  · have := fileGroups_unique h1 MergeEx.groups12
    subst this
    simp only [List.mem_cons, List.not_mem_nil, or_false] at h2
    rcases h2 with rfl | rfl
    · have e1 : MergeEx.pkt 1#8 0xc0#8 0#8 0 = first := (List.cons.inj h3).1
      rw [← e1, show MergeEx.dec.decode b (MergeEx.pkt 1#8 0xc0#8 0#8 0) = .ret (.ok MergeEx.time) from MergeEx.decodes b _ _ _ _] at h4
      cases h4
    · have e1 : MergeEx.pkt 2#8 0xc0#8 0#8 14 = first := (List.cons.inj h3).1
      rw [← e1, show MergeEx.dec.decode b (MergeEx.pkt 2#8 0xc0#8 0#8 14) = .ret (.ok MergeEx.time) from MergeEx.decodes b _ _ _ _] at h4
      cases h4

example (b : Build) := C21_total b MergeEx.tau m12 _ r12
  (by intro p hp; have : p = 0 := by simpa [m12, MergeEx.merger, Merger.new, Merger.withApidOrder] using hp
      subst this; exact ⟨_, rfl, noPanic12 b⟩)

/-- After a good packet a header with length field 65530: `decode_packets` panics there (C07_panic), and with it the merge. -/
def fBad : List U8 := MergeEx.bytes 1#8 0xc0#8 0#8 ++ [0x08#8, 1#8, 0xc0#8, 1#8, 0xff#8, 0xfa#8]
theorem bad : Collects PacketDecoder.next (PacketDecoder.new (MergeEx.file fBad).reader) [.ok (MergeEx.pkt 1#8 0xc0#8 0#8 0)] none := .step rfl (.panicked rfl)

example (b : Build) : FilePanics b MergeEx.dec (MergeEx.file fBad) := .inl ⟨_, bad⟩
example (b : Build) : Merges b MergeEx.tau MergeEx.merger (MergeEx.files fBad) .panic ∧ ∃ p ∈ [0], ∃ f, MergeEx.files fBad p = some f ∧ FilePanics b MergeEx.dec f := by
  have h : Merges b MergeEx.tau MergeEx.merger (MergeEx.files fBad) .panic :=
    .panicked (visit := [0]) (by intro p hp; have : p = 0 := by simpa [MergeEx.merger, Merger.new] using hp
                                 subst this; simp [MergeEx.files]) (List.Perm.refl _) (.panicked (f := MergeEx.file fBad) rfl ⟨_, _, bad, _, _, .step rfl (.done rfl), rfl⟩)
  exact ⟨h, C21_panic b MergeEx.tau MergeEx.merger _ (MergeEx.readable _ (by decide)) h⟩

/-- The merge of `FMEx.whole` with `--apids 1` is determined: two groups of different times. -/
example (b : Build) (out : List (List U8)) (h : Merges b MergeEx.tau MPEx.whole (MergeEx.files FMEx.whole) (.ok out)) : out = [FMEx.early, FMEx.late] :=
  C25_partial b MergeEx.tau MPEx.whole _ (MergeEx.readable _ (by decide)) (fun x y hx hy hk => by rw [MPEx.separated b x y hx hy (congrArg Prod.snd hk)])
    (fun x y hx hy ht _ => by rw [MPEx.separated b x y hx hy ht]) _ _ h (FMEx.merges b)

/-! ## C67, C86 -/

example (b : Build) := C67_partial b MergeEx.tau MergeCmdEx.micros _ CommandEx.faithful MergeCmdEx.args _ _ MergeCmdEx.ord (by decide) MergeCmdEx.order_args (by decide) (by decide)
  (MergeCmdEx.run b)
example (b : Build) := C67_jpss_viirs b MergeEx.tau MergeCmdEx.micros _ CommandEx.faithful MergeCmdEx.args _ _ (by decide) rfl (MergeCmdEx.run b)

/-- The same file without an order: APID 821 first. -/
theorem plainLoop (b : Build) : (mergerOf MergeCmdEx.micros MergeCmdEx.plain []).pointersLoop b MergeEx.tau 0
    [⟨826#16, [MergeCmdEx.pkt 0x3a#8 0]⟩, ⟨821#16, [MergeCmdEx.pkt 0x35#8 14]⟩] [] = .ret [MergeCmdEx.ptr 0x3a#8 0 826, MergeCmdEx.ptr 0x35#8 14 821] := by
  cases b with | mk o => cases o <;> rfl

theorem plainMerges (b : Build) : Merges b MergeEx.tau (mergerOf MergeCmdEx.micros MergeCmdEx.plain []) (MergeEx.files MergeCmdEx.content)
    (.ok [MergeCmdEx.bytes 0x35#8, MergeCmdEx.bytes 0x3a#8]) :=
  MergeEx.merges_of (idx := [MergeCmdEx.ptr 0x35#8 14 821, MergeCmdEx.ptr 0x3a#8 0 826]) rfl MergeCmdEx.groups (plainLoop b) (by simp) (List.Perm.swap _ _ _) (by decide)

theorem plainRun (b : Build) : MergeRun b MergeEx.tau MergeCmdEx.micros CommandEx.sched MergeCmdEx.plain MergeCmdEx.disk .ok
    (MergeCmdEx.disk.put 1 (MergeCmdEx.bytes 0x35#8 ++ MergeCmdEx.bytes 0x3a#8)) := by
  have := MergeRun.ran (b := b) (τ := MergeEx.tau) (micros := MergeCmdEx.micros) (sched := CommandEx.sched) (a := MergeCmdEx.plain) (fs := MergeCmdEx.disk) (ord := [])
    (.inr rfl) rfl (by decide)
    (merges_congr (files' := (MergeCmdEx.disk.put MergeCmdEx.plain.output []).files CommandEx.sched) (by
      intro p hp
      have : p = 0 := by simpa [mergerOf, MergeCmdEx.plain, MergeCmdEx.args, Merger.withApids, Merger.withApidOrder, Merger.new] using hp
      subst this
      rfl) (plainMerges b))
  simpa [mergeEnd, MergeCmdEx.plain, MergeCmdEx.args] using this

example (b : Build) := C67_default b MergeEx.tau MergeCmdEx.micros _ CommandEx.faithful MergeCmdEx.plain _ _ (by decide) rfl rfl (plainRun b)
example (b : Build) := C86_without_to b MergeEx.tau MergeCmdEx.micros _ CommandEx.faithful MergeCmdEx.plain _ _ MergeHelpEx.mono
  (by intro t ht; rcases ht with ht | ht <;> simp [MergeCmdEx.plain, MergeCmdEx.args] at ht) (by decide) rfl (plainRun b)

/-! ## C94 to C96 -/

example (b : Build) := C96_split_keys b MergeEx.tau MPEx.whole MPEx.mid _ (MergeEx.readable _ (by decide)) (by decide) (by decide) _ _ _ (FMEx.merges b) (MPEx.upTo b) (MPEx.onwards b)

theorem delivers {l : List U8} (hl : l ≠ []) : (MergeEx.file l).reader.Delivers (MergeEx.file l).content := by
  refine ⟨?_, by simp [evBytes, Ev.bytes, MergeEx.file, Reader.ofBytes], rfl⟩
  intro e he
  simp only [MergeEx.file, Reader.ofBytes, List.mem_cons, List.not_mem_nil, or_false] at he
  subst he
  exact .inl ⟨l, hl, rfl⟩

/-- Merging the output `early ++ late` again gives the same bytes. -/
example (b : Build) (res : MResult) (h : Merges b MergeEx.tau { MPEx.whole with paths := [0] } (MergeEx.files (FMEx.early ++ FMEx.late)) res) :
    ∃ out', res = .ok out' ∧ out'.flatten = FMEx.early ++ FMEx.late := by
  obtain ⟨out', e, h⟩ := (C94_again b MergeEx.tau MPEx.whole _ (MergeEx.readable _ (by decide)) (fun x y hx hy ht _ => by rw [MPEx.separated b x y hx hy ht]) _ (FMEx.merges b) 0
    (MergeEx.file (FMEx.early ++ FMEx.late)) (delivers (by decide)) rfl (MergeEx.files (FMEx.early ++ FMEx.late)) rfl (MergeEx.readable _ (by decide))).2 res h
  exact ⟨out', e, h⟩

/-- Merging the second file of `MSEx` (one group) first, then its output with the other: the same as merging both. -/
def steps : Nat → Option MFile := MSEx.files
def swapped : Merger Nat := { MSEx.merger with paths := [1, 0] }

theorem inputs_swapped (b : Build) (e : Entry Nat) (h : Inputs b MergeEx.tau swapped steps e) : Inputs b MergeEx.tau MSEx.merger MSEx.files e := by
  obtain ⟨hp, h⟩ := h
  exact ⟨by simp [swapped, MSEx.merger, Merger.withApids, Merger.new] at hp ⊢; omega, h⟩

theorem apart (b : Build) (x y : Entry Nat) (hx : Inputs b MergeEx.tau swapped steps x) (hy : Inputs b MergeEx.tau swapped steps y)
    (ht : MergeEx.tau x.time = MergeEx.tau y.time) : x = y := by
  rcases MSEx.inputs (inputs_swapped b x hx) with rfl | rfl | rfl <;> rcases MSEx.inputs (inputs_swapped b y hy) with rfl | rfl | rfl
  all_goals first | rfl | exact absurd ht (by decide)

def filesAgain : Nat → Option MFile
  | 0 => some (MergeEx.file MSEx.c0)
  | 7 => some (MergeEx.file MSEx.c1)
  | _ => none

theorem mergesOne (b : Build) : Merges b MergeEx.tau { swapped with paths := [1] } steps (.ok [MSEx.day 2#8 2#8]) := by
  have hi : Index b MergeEx.tau { swapped with paths := [1] } steps [1] [] (some [MSEx.p2]) :=
    .step (f := MergeEx.file MSEx.c1) rfl (MSEx.pointers_of MSEx.groups1 (ps := [MSEx.p2]) (by cases b with | mk o => cases o <;> rfl)) (List.Perm.refl _) (List.Perm.refl _)
      (by rw [show Ptr.union MergeEx.tau [] [MSEx.p2] = [MSEx.p2] by rfl]; exact .done)
  have := Merges.finished (m := { swapped with paths := [1] }) (files := steps) (by intro p hp; simp at hp; subst hp; simp [steps, MSEx.files]) (List.Perm.refl _) hi (List.Perm.refl _)
  rwa [List.mergeSort_of_pairwise (by decide)] at this

theorem readableAgain : Readable filesAgain := by
  intro p f hf
  match p, hf with
  | 0, hf => cases hf; exact delivers (by decide)
  | 7, hf => cases hf; exact delivers (by decide)

example (b : Build) (out out' : List (List U8)) (h : Merges b MergeEx.tau swapped steps (.ok out)) (h' : Merges b MergeEx.tau { swapped with paths := [7, 0] } filesAgain (.ok out')) :
    out' = out :=
  C95_partial b MergeEx.tau swapped steps filesAgain [1] [0] 7 (MergeEx.file MSEx.c1) _ _ _ MSEx.readable readableAgain rfl (by simp [filesAgain, steps, MSEx.files]) (mergesOne b) rfl
    _ MSEx.groups1 rfl (fun x y hx hy hk => by rw [apart b x y hx hy (congrArg Prod.snd hk)]) (fun x y hx hy ht _ => by rw [apart b x y hx hy ht]) h h'

/-! ## C92, C93 -/

open Filter in
theorem only1 (b : Build) : Runs b FilterEx.tau (Reader.ofBytes FilterEx.stream) [1#16] [] none none (.ok [FilterEx.early]) :=
  (C53_untimed b FilterEx.tau (by decide) _ _ FilterEx.decodes [1#16] [] (by simp) _).2 (by decide +kernel)
open Filter in
theorem not1 (b : Build) : Runs b FilterEx.tau (Reader.ofBytes FilterEx.stream) [] [1#16] none none (.ok [FilterEx.late]) :=
  (C53_untimed b FilterEx.tau (by decide) _ _ FilterEx.decodes [] [1#16] (by simp) _).2 (by decide +kernel)

example (b : Build) := C92_split_apids b FilterEx.tau (by decide) _ _ FilterEx.decodes [1#16] (by decide) _ _ (only1 b) (not1 b)

/-- `--include 1` and then `--exclude 2` on the result. -/
example (b : Build) (r' : Reader) (h : r'.Delivers FilterEx.early) := C92_twice b FilterEx.tau (by decide) _ _ FilterEx.delivers _ FilterEx.decodes [1#16] [] [] [2#16]
  (by decide) (by decide) _ (only1 b) r' (by simpa using h)

theorem both12 (b : Build) : Filter.Runs b FilterEx.tau (Reader.ofBytes FilterEx.stream) [1#16, 2#16] [1#16] none none (.ok [FilterEx.late]) :=
  (C53_untimed b FilterEx.tau (by decide) _ _ FilterEx.decodes [1#16, 2#16] [1#16] (by simp) _).2 (by decide +kernel)
theorem any12 (b : Build) : Filter.Runs b FilterEx.tau (Reader.ofBytes FilterEx.stream) [1#16, 2#16] [] none none (.ok [FilterEx.early, FilterEx.late]) :=
  (C53_untimed b FilterEx.tau (by decide) _ _ FilterEx.decodes [1#16, 2#16] [] (by simp) _).2 (by decide +kernel)

example (b : Build) (r1 r2 : Reader) (h1 : r1.Delivers (FilterEx.early ++ FilterEx.late)) (h2 : r2.Delivers FilterEx.late) :=
  C92_include_then_exclude b FilterEx.tau (by decide) _ _ FilterEx.delivers _ FilterEx.decodes [1#16, 2#16] [1#16] (by decide) (by decide) _ _ _ (both12 b) (any12 b) (not1 b)
    r1 r2 (by simpa using h1) (by simpa using h2)

/-- The stream of `FilterEx` with another second packet, of 1976 instead of 2137, split in 1970. -/
def second : List U8 := [0x08#8, 2#8, 0xc0#8, 0#8, 0#8, 7#8] ++ [27#8, 1#8, 0#8, 0#8, 0#8, 0#8, 0#8, 0#8]
def secondPkt (off : Nat) : Packet := ⟨⟨0#8, 0#8, true, 2#16, 3#8, 0#16, 7#16⟩, second, off⟩
def two : List U8 := FilterEx.early ++ second
theorem twoDelivers : (Reader.ofBytes two).Delivers two := delivers (by decide)
theorem twoDecodes : Decodes (Reader.ofBytes two) [FilterEx.earlyPkt 0, secondPkt 14] := ⟨_, .step rfl (.step rfl (.done rfl))⟩
theorem twoGroups : GroupsOf [FilterEx.earlyPkt 0, secondPkt 14] [⟨1#16, [FilterEx.earlyPkt 0]⟩, ⟨2#16, [secondPkt 14]⟩] := ⟨_, .step rfl (.step rfl (.done rfl))⟩
def t0 : Epoch := ⟨.utc, (daysTo1958 + 4383) * 86400 * 1000000000⟩

theorem beforeThe2100s : ∀ g ∈ [(⟨1#16, [FilterEx.earlyPkt 0]⟩ : PacketGroup), ⟨2#16, [secondPkt 14]⟩], ∀ first ∈ g.packets.head?, ∀ t ∈ cdsTime first,
    FilterEx.tau t < FilterEx.tau ⟨.utc, (daysTo1958 + 51865) * 86400 * 1000000000⟩ := by decide +kernel

theorem upTo1970 (b : Build) : Filter.Runs b FilterEx.tau (Reader.ofBytes two) [] [] (some t0) none (.ok [FilterEx.early]) :=
  (C53_partial b FilterEx.tau two _ _ _ [] [] _ _ twoDelivers twoDecodes twoGroups (.inl rfl) (by simp) _).2 (by decide +kernel)
theorem from1970 (b : Build) : Filter.Runs b FilterEx.tau (Reader.ofBytes two) [] [] none (some t0) (.ok [second]) :=
  (C53_partial b FilterEx.tau two _ _ _ [] [] _ _ twoDelivers twoDecodes twoGroups (.inr rfl) (fun _ => beforeThe2100s) _).2 (by decide +kernel)

example (b : Build) := C92_split_time b FilterEx.tau two _ _ _ t0 twoDelivers twoDecodes twoGroups beforeThe2100s _ _ (upTo1970 b) (from1970 b)

/-- `FMEx.whole` filtered with `--include 1,2` (which keeps all of it), and merged with `--apids 1,2`. -/
def sel : List U16 := [1#16, 2#16]
theorem mergesSel (b : Build) : Merges b MergeEx.tau (MergeEx.merger.withApids sel) (MergeEx.files FMEx.whole) (.ok [FMEx.early, FMEx.late, FMEx.other]) :=
  MergeEx.merges_of (idx := [FMEx.pEarly, FMEx.pLate, MPEx.pOther]) rfl FMEx.groups (ps := [FMEx.pLate, MPEx.pOther, FMEx.pEarly]) (by cases b with | mk o => cases o <;> rfl)
    (by simp) ((List.Perm.swap _ _ _).trans (.cons _ (.swap _ _ _))) (by decide)

theorem decOther (b : Build) (seq fl : U8) (off : Nat) : MergeEx.dec.decode b (FMEx.pkt 2#8 2#8 fl seq off) = .ret (.ok (FMEx.time 2)) := by
  have : MergeEx.dec.decode b (FMEx.pkt 2#8 2#8 fl seq off) = Timecode.decode b (.cds 2 2) [2#8, 0#8, 0#8, 0#8, 0#8, 0#8, 0#8, 0#8] := rfl
  rw [this]
  cases b with | mk o => cases o <;> decide

theorem inputsSel {b : Build} {e : Entry Nat} (h : Inputs b MergeEx.tau (MergeEx.merger.withApids sel) (MergeEx.files FMEx.whole) e) :
    e = ⟨0, FMEx.gLate, FMEx.time 2⟩ ∨ e = ⟨0, FMEx.gOther, FMEx.time 2⟩ ∨ e = ⟨0, FMEx.gEarly, FMEx.time 1⟩ := by
  obtain ⟨p, g, t⟩ := e
  obtain ⟨hp, f, gs, hf, hgs, hg, he⟩ := h
  simp only at hp hf hg he
  have hp : p = 0 := by simpa [MergeEx.merger, Merger.new, Merger.withApids] using hp
  subst hp
  have : f = MergeEx.file FMEx.whole := (Option.some.inj (show some (MergeEx.file FMEx.whole) = some f from hf)).symm
  subst this
  have := fileGroups_unique hgs FMEx.groups
  subst this
  obtain ⟨first, rest, ep, _, hd, _, _, hs⟩ := he
  simp only [List.mem_cons, List.not_mem_nil, or_false] at hg
  rcases hg with rfl | rfl | rfl
  · have e1 : FMEx.pkt 2#8 1#8 0x40#8 0#8 0 = first := (List.cons.inj ep).1
    subst e1
    have := (FMEx.decLate b 0#8 0x40#8 0).symm.trans hd
    simp only [Outcome.ret.injEq, Except.ok.injEq] at this
    exact .inl (by rw [this])
  · have e1 : FMEx.pkt 2#8 2#8 0xc0#8 0#8 28 = first := (List.cons.inj ep).1
    subst e1
    have := (decOther b 0#8 0xc0#8 28).symm.trans hd
    simp only [Outcome.ret.injEq, Except.ok.injEq] at this
    exact .inr (.inl (by rw [this]))
  · have e1 : FMEx.pkt 1#8 1#8 0x40#8 2#8 42 = first := (List.cons.inj ep).1
    subst e1
    have := (FMEx.decEarly b 2#8 0x40#8 42).symm.trans hd
    simp only [Outcome.ret.injEq, Except.ok.injEq] at this
    exact .inr (.inr (by rw [this]))

theorem keepsApart : KeepsApart sel [FMEx.gLate, FMEx.gOther, FMEx.gEarly] := by
  intro l g h r he
  right
  have he : [FMEx.gLate, FMEx.gOther, FMEx.gEarly] = l ++ g :: h :: r := he
  match l, he with
  | [], he => cases he; decide
  | [_], he => cases he; decide
  | _ :: _ :: l, he =>
    have := congrArg List.length he
    simp at this
    omega

theorem filteredSel (b : Build) : Filtered b MergeEx.tau sel [] MergeEx.merger.paths (MergeEx.files FMEx.whole) (MergeEx.files FMEx.whole) := by
  intro p hp
  have hp : p = 0 := by simpa [MergeEx.merger, Merger.new] using hp
  subst hp
  exact ⟨_, _, [FMEx.bytes 2#8 1#8 0x40#8 0#8, FMEx.bytes 2#8 1#8 0x80#8 1#8, FMEx.bytes 2#8 2#8 0xc0#8 0#8, FMEx.bytes 1#8 1#8 0x40#8 2#8, FMEx.bytes 1#8 1#8 0x80#8 3#8],
    rfl, rfl, (C53_untimed b MergeEx.tau (by decide) _ _ FMEx.decodes sel [] (by simp [sel]) _).2 (by decide +kernel), by decide⟩

example (b : Build) (out' : List (List U8)) (h' : Merges b MergeEx.tau MergeEx.merger (MergeEx.files FMEx.whole) (.ok out')) : out' = [FMEx.early, FMEx.late, FMEx.other] :=
  C93_partial b MergeEx.tau MergeEx.merger _ _ sel [] sel _ _ (by decide) (MergeEx.readable _ (by decide)) (MergeEx.readable _ (by decide)) rfl (by simp [sel]) (by simp [sel])
    (by intro a; simp [ApidPasses, sel]) (filteredSel b)
    (by
      intro x y hx hy hk
      rcases inputsSel hx with rfl | rfl | rfl <;> rcases inputsSel hy with rfl | rfl | rfl
      all_goals first | rfl | exact absurd hk (by decide))
    (by
      intro x y hx hy ht hr
      rcases inputsSel hx with rfl | rfl | rfl <;> rcases inputsSel hy with rfl | rfl | rfl
      all_goals first | rfl | exact absurd ht (by decide) | exact absurd hr (by decide))
    (by
      intro p hp f gs hf hgs
      have hp : p = 0 := by simpa [MergeEx.merger, Merger.new] using hp
      subst hp
      have : f = MergeEx.file FMEx.whole := (Option.some.inj (show some (MergeEx.file FMEx.whole) = some f from hf)).symm
      subst this
      rw [fileGroups_unique hgs FMEx.groups]
      exact keepsApart)
    (mergesSel b) h'

/-- Three unsegmented packets of two APIDs. -/
example (sel : List U16) : KeepsApart sel [⟨1#16, [FilterEx.earlyPkt 0]⟩, ⟨2#16, [FilterEx.latePkt 14]⟩] :=
  C93_unsegmented sel _ _ FilterEx.groups (by decide)

/-! ## C94 and C96 for the command -/

theorem plainInputs {b : Build} {e : Entry Nat} (h : Inputs b MergeEx.tau (mergerOf MergeCmdEx.micros MergeCmdEx.plain []) (MergeCmdEx.disk.files CommandEx.sched) e) :
    e = ⟨0, ⟨826#16, [MergeCmdEx.pkt 0x3a#8 0]⟩, MergeEx.time⟩ ∨ e = ⟨0, ⟨821#16, [MergeCmdEx.pkt 0x35#8 14]⟩, MergeEx.time⟩ := by
  obtain ⟨p, g, t⟩ := e
  obtain ⟨hp, f, gs, hf, hgs, hg, he⟩ := h
  simp only at hp hf hg he
  have hp : p = 0 := by simpa [mergerOf, MergeCmdEx.plain, MergeCmdEx.args, Merger.withApids, Merger.withApidOrder, Merger.new] using hp
  subst hp
  have : f = MergeEx.file MergeCmdEx.content := (Option.some.inj (show some (MergeEx.file MergeCmdEx.content) = some f from hf)).symm
  subst this
  have := fileGroups_unique hgs MergeCmdEx.groups
  subst this
  have hdec : ∀ low off, (TimecodeDecoder.new (.cds 2 2)).decode b (MergeCmdEx.pkt low off) = .ret (.ok MergeEx.time) := by
    intro low off
    have : (TimecodeDecoder.new (.cds 2 2)).decode b (MergeCmdEx.pkt low off) = Timecode.decode b (.cds 2 2) (List.replicate 8 1#8) := rfl
    rw [this]
    cases b with | mk o => cases o <;> decide
  obtain ⟨first, rest, ep, _, hd, _, _, hs⟩ := he
  simp only [List.mem_cons, List.not_mem_nil, or_false] at hg
  rcases hg with rfl | rfl
  · have e1 : MergeCmdEx.pkt 0x3a#8 0 = first := (List.cons.inj ep).1
    subst e1
    have := (hdec 0x3a#8 0).symm.trans hd
    simp only [Outcome.ret.injEq, Except.ok.injEq] at this
    exact .inl (by rw [this])
  · have e1 : MergeCmdEx.pkt 0x35#8 14 = first := (List.cons.inj ep).1
    subst e1
    have := (hdec 0x35#8 14).symm.trans hd
    simp only [Outcome.ret.injEq, Except.ok.injEq] at this
    exact .inr (by rw [this])

/-- The output of the merge of `MergeCmdEx` merged again: the same file. -/
example (b : Build) (fs2 : FS Nat) (h2 : MergeRun b MergeEx.tau MergeCmdEx.micros CommandEx.sched { MergeCmdEx.plain with inputs := [1], output := 2 }
      (MergeCmdEx.disk.put 1 (MergeCmdEx.bytes 0x35#8 ++ MergeCmdEx.bytes 0x3a#8)) .ok fs2) : fs2 2 = some (MergeCmdEx.bytes 0x35#8 ++ MergeCmdEx.bytes 0x3a#8) :=
  C94_command b MergeEx.tau MergeCmdEx.micros _ CommandEx.faithful MergeCmdEx.plain _ _ _ (by decide) (plainRun b)
    (by
      intro ord ho x y hx hy ht hr
      have : ord = [] := (Option.some.inj (show some [] = some ord from ho)).symm
      subst this
      rcases plainInputs hx with rfl | rfl <;> rcases plainInputs hy with rfl | rfl
      all_goals first | rfl | exact absurd hr (by decide))
    2 (by decide) h2

/-- Such a second run exists. -/
example (b : Build) : MergeRun b MergeEx.tau MergeCmdEx.micros CommandEx.sched { MergeCmdEx.plain with inputs := [1], output := 2 }
    (MergeCmdEx.disk.put 1 (MergeCmdEx.bytes 0x35#8 ++ MergeCmdEx.bytes 0x3a#8)) .ok
    ((MergeCmdEx.disk.put 1 (MergeCmdEx.bytes 0x35#8 ++ MergeCmdEx.bytes 0x3a#8)).put 2 (MergeCmdEx.bytes 0x35#8 ++ MergeCmdEx.bytes 0x3a#8)) := by
  let a : MergeArgs Nat := { MergeCmdEx.plain with inputs := [1], output := 2 }
  let fs := MergeCmdEx.disk.put 1 (MergeCmdEx.bytes 0x35#8 ++ MergeCmdEx.bytes 0x3a#8)
  let fl := (fs.put a.output []).files CommandEx.sched
  let q1 : Ptr Nat := ⟨1, 0, 14, MergeEx.time, 821#16, 0#16, 821⟩
  let q2 : Ptr Nat := ⟨1, 14, 14, MergeEx.time, 826#16, 0#16, 826⟩
  have hg : FileGroups (MergeEx.file (MergeCmdEx.bytes 0x35#8 ++ MergeCmdEx.bytes 0x3a#8)) [⟨821#16, [MergeCmdEx.pkt 0x35#8 0]⟩, ⟨826#16, [MergeCmdEx.pkt 0x3a#8 14]⟩] :=
    ⟨[MergeCmdEx.pkt 0x35#8 0, MergeCmdEx.pkt 0x3a#8 14], _, _, .step rfl (.step rfl (.done rfl)), .step rfl (.step rfl (.done rfl))⟩
  have hi : Index b MergeEx.tau (mergerOf MergeCmdEx.micros a []) fl [1] [] (some [q1, q2]) :=
    .step (f := MergeEx.file (MergeCmdEx.bytes 0x35#8 ++ MergeCmdEx.bytes 0x3a#8)) rfl (MSEx.pointers_of hg (ps := [q1, q2]) (by cases b with | mk o => cases o <;> rfl))
      (List.Perm.refl _) (List.Perm.refl _) (by rw [show Ptr.union MergeEx.tau [] [q1, q2] = [q1, q2] by rfl]; exact .done)
  have hm := Merges.finished (m := mergerOf MergeCmdEx.micros a []) (files := fl) (by
    intro p hp
    have hp : p = 1 := by simpa [mergerOf, a, MergeCmdEx.plain, MergeCmdEx.args, Merger.withApids, Merger.withApidOrder, Merger.new] using hp
    subst hp
    simp [fl, fs, a, FS.files, FS.put]) (List.Perm.refl _) hi (List.Perm.refl _)
  rw [List.mergeSort_of_pairwise (by decide)] at hm
  exact MergeRun.ran (b := b) (τ := MergeEx.tau) (micros := MergeCmdEx.micros) (sched := CommandEx.sched) (a := a) (fs := fs) (ord := []) (.inr rfl) rfl (by decide) hm

/-- `FMEx.whole` on disk, merged with `--apids 1` up to and from the time of its late group. -/
def fmDisk : FS Nat := fun p => if p = 0 then some FMEx.whole else none
def fmArgs : MergeArgs Nat := ⟨[0], 1, false, none, none, none, none, [1#16]⟩

theorem fmRun (b : Build) (fr to_ : Option Epoch) (o : Nat) (ho : o ≠ 0) (w : List (List U8))
    (h : Merges b MergeEx.tau (mergerOf MergeCmdEx.micros { fmArgs with from? := fr, to? := to_, output := o } []) (MergeEx.files FMEx.whole) (.ok w)) :
    MergeRun b MergeEx.tau MergeCmdEx.micros CommandEx.sched { fmArgs with from? := fr, to? := to_, output := o } fmDisk .ok (fmDisk.put o w.flatten) := by
  have hm := merges_congr (files' := (fmDisk.put o []).files CommandEx.sched) (by
    intro p hp
    have hp : p = 0 := by cases fr <;> cases to_ <;> simpa [mergerOf, fmArgs, Merger.withApids, Merger.withApidOrder, Merger.new, Merger.withFrom, Merger.withTo] using hp
    subst hp
    simp only [FS.files, FS.put, if_neg (Ne.symm ho)]
    rfl) h
  exact MergeRun.ran (b := b) (τ := MergeEx.tau) (micros := MergeCmdEx.micros) (sched := CommandEx.sched) (a := { fmArgs with from? := fr, to? := to_, output := o })
    (fs := fmDisk) (ord := []) (.inr (by simp [fmDisk, ho])) rfl (by simp [fmArgs]) hm

def midE : Epoch := ⟨.utc, (daysTo1958 + 512) * 86400 * 1000000000⟩

theorem fmInputs {b : Build} {e : Entry Nat} (ord : List U16) (ho : orderOf fmArgs = some ord)
    (h : Inputs b MergeEx.tau (mergerOf MergeCmdEx.micros fmArgs ord) (fmDisk.files CommandEx.sched) e) :
    e = ⟨0, FMEx.gLate, FMEx.time 2⟩ ∨ e = ⟨0, FMEx.gEarly, FMEx.time 1⟩ := by
  have : ord = [] := (Option.some.inj (show some [] = some ord from ho)).symm
  subst this
  refine FMEx.inputs (b := b) ?_
  obtain ⟨hp, f, gs, hf, h⟩ := h
  refine ⟨hp, f, gs, ?_, h⟩
  have hp : e.path = 0 := by simpa [mergerOf, fmArgs, Merger.withApids, Merger.withApidOrder, Merger.new] using hp
  rw [hp] at hf ⊢
  exact hf

example (b : Build) : ∃ w1 w2, (fmDisk.put 2 FMEx.early) 2 = some w1 ∧ (fmDisk.put 3 FMEx.late) 3 = some w2 ∧ (fmDisk.put 1 (FMEx.early ++ FMEx.late)) 1 = some (w1 ++ w2) :=
  C96_command b MergeEx.tau MergeCmdEx.micros _ CommandEx.faithful fmArgs midE 2 3 fmDisk _ _ _ (by decide)
    (by simpa [fmArgs] using fmRun b none none 1 (by decide) _ (FMEx.merges b)) (by simpa [fmArgs] using fmRun b none (some midE) 2 (by decide) _ (MPEx.upTo b))
    (by simpa [fmArgs] using fmRun b (some midE) none 3 (by decide) _ (MPEx.onwards b)) MergeHelpEx.mono (by simp [fmArgs]) ⟨fun _ => by decide +kernel, by simp [fmArgs]⟩
    (by
      intro ord ho x y hx hy hk
      rcases fmInputs ord ho hx with rfl | rfl <;> rcases fmInputs ord ho hy with rfl | rfl
      all_goals first | rfl | exact absurd hk (by decide))
    (by
      intro ord ho x y hx hy ht _
      rcases fmInputs ord ho hx with rfl | rfl <;> rcases fmInputs ord ho hy with rfl | rfl
      all_goals first | rfl | exact absurd ht (by decide))

/-! ## C107 -/

example (b : Build) (files : Nat → Option MFile) (r : MResult) :
    Merges b MergeEx.tau MSEx.merger files r ↔ Merges b MergeEx.tau { MSEx.merger with paths := [1, 0, 1] } files r :=
  C107_merge b MergeEx.tau MSEx.merger { MSEx.merger with paths := [1, 0, 1] } files (by intro p; simp [MSEx.merger, Merger.withApids, Merger.new]; omega) ⟨rfl, rfl, rfl, rfl, rfl⟩ r

example (b : Build) (fs' : FS Nat) (st : Status) :
    MergeRun b MergeEx.tau MergeCmdEx.micros CommandEx.sched { fmArgs with inputs := [0, 5] } fmDisk st fs' ↔
    MergeRun b MergeEx.tau MergeCmdEx.micros CommandEx.sched { fmArgs with inputs := [5, 0, 5] } fmDisk st fs' :=
  C107_command b MergeEx.tau MergeCmdEx.micros _ { fmArgs with inputs := [0, 5] } fmDisk [5, 0, 5] (by intro p; simp; omega) st fs'

/-! ## C126 -/

/-- A system on which nothing goes wrong. -/
def wellBehaved (files : Nat → Option MFile) : Sys Nat := fun _ p off =>
  match files p with
  | some f => .reads ⟨if f.content.drop off = [] then [] else [.data (f.content.drop off)], .eof⟩
  | none => .noSeek

theorem wb_faultless (files : Nat → Option MFile) : Faultless files (wellBehaved files) := by
  intro i p off f hf
  refine ⟨_, by unfold wellBehaved; rw [hf], ?_⟩
  refine ⟨?_, by dsimp only; split <;> simp_all [evBytes, Ev.bytes], rfl⟩
  intro e he
  dsimp only at he
  split at he
  · simp at he
  · rename_i hne
    simp only [List.mem_cons, List.not_mem_nil, or_false] at he
    exact .inl ⟨_, hne, he⟩

theorem wb_honest (files : Nat → Option MFile) : Honest files (wellBehaved files) := by
  intro i p off r f h hf
  unfold wellBehaved at h
  rw [hf] at h
  cases h
  split
  · exact List.nil_prefix
  · simp [evBytes, Ev.bytes]

example (b : Build) : Merges b MergeEx.tau MSEx.merger MSEx.files (.ok [MSEx.day 1#8 0#8, MSEx.day 2#8 2#8, MSEx.day 3#8 4#8]) :=
  C126_success b MergeEx.tau MSEx.merger MSEx.files _ (wb_honest _) [] _ ((C126_sound b MergeEx.tau MSEx.merger MSEx.files _ (wb_faultless _) [] (by simp [Healthy]) _).2 (MSEx.mergesAll b))

def plainFiles : Nat → Option MFile := (MergeCmdEx.disk.put MergeCmdEx.plain.output []).files CommandEx.sched

theorem plainMerges' (b : Build) : Merges b MergeEx.tau (mergerOf MergeCmdEx.micros MergeCmdEx.plain []) plainFiles (.ok [MergeCmdEx.bytes 0x35#8, MergeCmdEx.bytes 0x3a#8]) :=
  merges_congr (by
    intro p hp
    have : p = 0 := by simpa [mergerOf, MergeCmdEx.plain, MergeCmdEx.args, Merger.withApids, Merger.withApidOrder, Merger.new] using hp
    subst this
    rfl) (plainMerges b)

/-- The file cannot be read from any offset but the beginning. -/
def onlyOnce : Sys Nat := fun i p off => if off = 0 then wellBehaved plainFiles i p off else .noSeek

theorem onlyOnce_honest : Honest plainFiles onlyOnce := by
  intro i p off r f h hf
  unfold onlyOnce at h
  split at h
  · exact wb_honest plainFiles i p off r f h hf
  · cases h

theorem plainRunS (b : Build) : MergeRunS b MergeEx.tau MergeCmdEx.micros CommandEx.sched (wellBehaved plainFiles) MergeCmdEx.plain MergeCmdEx.disk [] .ok
    (MergeCmdEx.disk.put 1 (MergeCmdEx.bytes 0x35#8 ++ MergeCmdEx.bytes 0x3a#8)) := by
  have := MergeRunS.ran (b := b) (τ := MergeEx.tau) (micros := MergeCmdEx.micros) (sched := CommandEx.sched) (sys := wellBehaved plainFiles) (a := MergeCmdEx.plain) (fs := MergeCmdEx.disk)
    (s := []) (ord := []) (.inr rfl) rfl (by decide) ((C126_sound b MergeEx.tau _ plainFiles _ (wb_faultless _) [] (by simp [Healthy]) _).2 (plainMerges' b))
  simpa [mergeEnd, MergeCmdEx.plain, MergeCmdEx.args] using this

example (b : Build) := C126_command b MergeEx.tau MergeCmdEx.micros CommandEx.sched (wellBehaved plainFiles) MergeCmdEx.plain MergeCmdEx.disk _ (wb_honest _) [] _ (plainRunS b)

/-- Whatever a run of the command with that file comes to. -/
example (b : Build) (st : Status) (fs' : FS Nat) (h : MergeRunS b MergeEx.tau MergeCmdEx.micros CommandEx.sched onlyOnce MergeCmdEx.plain MergeCmdEx.disk [] st fs') :=
  C126_command b MergeEx.tau MergeCmdEx.micros CommandEx.sched onlyOnce MergeCmdEx.plain MergeCmdEx.disk fs' onlyOnce_honest [] st h

end Ccsds.Cases.Merge
