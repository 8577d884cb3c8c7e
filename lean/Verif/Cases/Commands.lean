import Verif.Cases.Merge
import Verif.Props.Commands
import Verif.Props.CommandTotal
import Verif.Props.Writes
import Verif.Props.WritesOnly
import Verif.Props.Crash
import Verif.Props.Diff
import Verif.Props.DiffText
import Verif.Props.Info
import Verif.Props.InputErrors
import Verif.Props.Termination
import Verif.Props.HelpText
/-!
# Concrete cases: the commands

Each theorem of `Props/Commands`, `Props/CommandTotal`, `Props/Writes`, `Props/WritesOnly`, `Props/Crash`, `Props/Filter`, `Props/Diff`, `Props/DiffText`, `Props/Info`,
`Props/InputErrors`, `Props/Termination` and `Props/HelpText` that has hypotheses, applied to concrete data that meets them. Where `example` is followed directly by `:=`, its
statement is that of the theorem at these arguments.
-/
namespace Ccsds.Cases.Commands
open Spec Cmd

/-! ## C53  filter -/

theorem only1 (b : Build) : Filter.Runs b FilterEx.tau (Reader.ofBytes FilterEx.stream) [1#16] [] none none (.ok [FilterEx.early]) := Merge.only1 b

example (b : Build) := C53_redecode b FilterEx.tau (by decide) _ _ FilterEx.delivers _ FilterEx.decodes [1#16] [] (by decide) _ (only1 b) (Reader.ofBytes FilterEx.early) DiffEx.delivers1
example (b : Build) (res : Filter.FResult) : Filter.Runs b FilterEx.tau (Reader.ofBytes FilterEx.early) [1#16] [] none none res ↔ res = .ok [FilterEx.early] :=
  C53_idempotent b FilterEx.tau (by decide) _ _ FilterEx.delivers _ FilterEx.decodes [1#16] [] (by decide) _ (only1 b) (Reader.ofBytes FilterEx.early) DiffEx.delivers1 res

/-- A packet, then a header with length field 65530 (`Merge.fBad`): the packet is written, then the program panics. -/
theorem badGroups : GroupsOf [MergeEx.pkt 1#8 0xc0#8 0#8 0] [⟨1#16, [MergeEx.pkt 1#8 0xc0#8 0#8 0]⟩] := ⟨_, .step rfl (.done rfl)⟩
theorem badRun (b : Build) : Filter.Runs b MergeEx.tau (MergeEx.file Merge.fBad).reader [1#16] [] none none (.panic [MergeEx.bytes 1#8 0xc0#8 0#8]) := by
  have hp : Filter.PacketsUntimed (MergeEx.file Merge.fBad).reader [⟨MergeEx.bytes 1#8 0xc0#8 0#8, 1#16, Filter.minEpoch⟩] false :=
    ⟨[MergeEx.pkt 1#8 0xc0#8 0#8 0], none, .step rfl (.panicked rfl), rfl, rfl⟩
  exact .run (b := b) (τ := MergeEx.tau) (incl := [1#16]) (excl := []) (before := none) (after := none) (ends := false) (by decide) hp
example (b : Build) := C53_panic b MergeEx.tau (by decide) Merge.fBad _ [MergeEx.pkt 1#8 0xc0#8 0#8 0] _ [1#16] [] none none (Merge.delivers (by decide)) Merge.bad badGroups (by decide)
  (fun _ => by decide +kernel) _ (badRun b)

/-! ## C54, C91  diff -/

/-- Left: both packets; right: the first packet twice, which is a difference on both sides. -/
def twice : MFile := ⟨FilterEx.early ++ FilterEx.early, Reader.ofBytes (FilterEx.early ++ FilterEx.early)⟩
theorem twiceDelivers : twice.reader.Delivers twice.content := Merge.delivers (l := FilterEx.early ++ FilterEx.early) (by decide)
theorem twiceDecodes : Decodes twice.reader [FilterEx.earlyPkt 0, FilterEx.earlyPkt 14] := ⟨_, .step rfl (.step rfl (.done rfl))⟩

theorem differ (c : List U8 → U32) : ∃ t lines, Diff.Runs c (some DiffEx.both) (some twice) true (.differ t lines) := by
  have h := (C54_total c DiffEx.both twice _ _ FilterEx.decodes twiceDecodes true _).2 rfl
  have hk : Diff.keys c [FilterEx.earlyPkt 0, FilterEx.latePkt 14] = .ret [packetKey c (FilterEx.earlyPkt 0), packetKey c (FilterEx.latePkt 14)] := rfl
  have hk' : Diff.keys c [FilterEx.earlyPkt 0, FilterEx.earlyPkt 14] = .ret [packetKey c (FilterEx.earlyPkt 0), packetKey c (FilterEx.earlyPkt 14)] := rfl
  have hs : ∀ t, Diff.compare c [FilterEx.earlyPkt 0, FilterEx.latePkt 14] [FilterEx.earlyPkt 0, FilterEx.earlyPkt 14] true ≠ .same t := by
    intro t hr
    obtain ⟨_, h3⟩ := (C54_partial c DiffEx.both twice _ _ true _ FilterEx.delivers twiceDelivers FilterEx.decodes twiceDecodes h).1 ⟨t, hr⟩
    rcases h3 with h3 | ⟨k, _, h3⟩ | ⟨k, _, h3⟩
    · have := h3.mem_iff (a := packetKey c (FilterEx.latePkt 14))
      simp [packetKey, FilterEx.latePkt, FilterEx.earlyPkt] at this
    · have := h3.length_eq; simp at this
    · have := h3.length_eq; simp at this
  revert h hs
  simp only [Diff.compare, hk, hk']
  split
  · rename_i h0
    have := congrArg List.length (List.isEmpty_iff.1 (Bool.and_eq_true _ _ ▸ h0).1)
    simp at this
  · split
    · intro h _; exact ⟨_, _, h⟩
    · intro _ h; exact absurd rfl (h _)

example (c : List U8 → U32) : ∃ rows lines, Diff.Runs c (some DiffEx.both) (some twice) true (.differ (some rows) lines) ∧ lines ≠ [] ∧
    (∃ omitted : List Diff.Line, omitted.length ≤ 1 ∧ (lines ++ omitted).count (.left (packetKey c (FilterEx.latePkt 14))) = 1) ∧ (1#16, 1, 2) ∈ rows := by
  obtain ⟨t, lines, h⟩ := differ c
  obtain ⟨h1, om, h2, h3⟩ := C54_lines c DiffEx.both twice _ _ true t lines FilterEx.delivers twiceDelivers FilterEx.decodes twiceDecodes h
  obtain ⟨rows, rfl, _, h4⟩ := (C54_table c DiffEx.both twice _ _ true t _ FilterEx.delivers twiceDelivers FilterEx.decodes twiceDecodes h (.inr ⟨lines, rfl⟩)).2 rfl
  refine ⟨rows, lines, h, h1, ⟨om, h2, ?_⟩, (h4 _ _ _).2 (by decide +kernel)⟩
  rw [(h3 _).1]
  simp [packetKey, FilterEx.latePkt, FilterEx.earlyPkt]

/-- The same packets in another order: no difference. -/
example (c : List U8 → U32) (res : Diff.DResult) (h : Diff.Runs c (some DiffEx.both) (some OrderEx.swapped) true res) : ∃ t, res = .same t :=
  C54_no_false_alarm c DiffEx.both OrderEx.swapped _ _ true res FilterEx.delivers OrderEx.delivers' FilterEx.decodes OrderEx.decodes' h (by simp) (List.Perm.swap _ _ _)

/-- Two empty files. -/
def empty : MFile := ⟨[], ⟨[], .eof⟩⟩
theorem emptyDecodes : Decodes empty.reader [] := ⟨_, .done rfl⟩
example (c : List U8 → U32) (res : Diff.DResult) (h : Diff.Runs c (some empty) (some empty) true res) : res = .noPackets := C54_no_packets c empty empty true res emptyDecodes emptyDecodes h

example (c : List U8 → U32) (res : Diff.DResult) : Diff.Runs c (some (MergeEx.file Merge.fBad)) (some empty) true res ↔ res = .panic :=
  C54_panic c (MergeEx.file Merge.fBad) empty _ _ none _ true res Merge.bad (.done rfl) (.inl rfl)

example (b : Build) : Report.difference b 3 2147483647 = Outcome.ret (-2147483644) := Report.C91_difference b 3 2147483647 (by decide) (by decide)

/-- A report with a table of two rows and two lines, read back. -/
example (b : Build) := Report.C91_readable b "left.dat".toList "right.dat".toList (by decide) (by decide) (some [(1#16, 1, 2), (2047#16, 5, 2147483647)])
  (by intro rows h x hx; cases h; revert x hx; decide) [.left ⟨2#16, 0#16, 0xffffffff#32⟩, .right ⟨1#16, 16383#16, 7#32⟩] (by unfold Report.KeyFits; decide)

/-! ## C56  info -/

example (b : Build) (i : Info.Info) (h : Info.Runs b FilterEx.tau true (Reader.ofBytes FilterEx.stream) (some i)) :=
  C56_same_counts_as_library b FilterEx.tau true _ _ _ FilterEx.delivers FilterEx.decodes i h
example (b : Build) : ∃ i, Info.Runs b FilterEx.tau true (Reader.ofBytes FilterEx.stream) (some i) := by
  obtain ⟨i, _, h⟩ := C56_info b FilterEx.tau true _ _ _ FilterEx.delivers FilterEx.decodes
  exact ⟨i, (h _).2 rfl⟩
example (b : Build) (res : Option Info.Info) : Info.Runs b MergeEx.tau true (MergeEx.file Merge.fBad).reader res ↔ res = none := C56_panic b MergeEx.tau true _ _ Merge.bad res

/-! ## C62 to C64 -/

example (b : Build) := C62_filter b FilterEx.tau RangesEx.ascii CommandEx.sched CommandEx.fine CommandEx.disk _ _ (CommandEx.run_fine b)
example (b : Build) := C62_merge b MergeEx.tau MergeCmdEx.micros CommandEx.sched MergeCmdEx.args MergeCmdEx.disk _ _ (MergeCmdEx.run b)
example (b : Build) := C63_filter_partial b FilterEx.tau RangesEx.ascii CommandEx.sched CommandEx.badRange CommandEx.disk _ _ (CommandEx.run_bad b) (by decide)
example (b : Build) := C64_filter_partial b FilterEx.tau RangesEx.ascii CommandEx.sched CommandEx.fine CommandEx.disk _ (by decide) (CommandEx.run_fine b)
example (b : Build) : (CommandEx.disk.put 0 []) = CommandEx.disk.put CommandEx.inPlace.output [] :=
  C64_filter_in_place b FilterEx.tau RangesEx.ascii CommandEx.sched CommandEx.faithful CommandEx.inPlace CommandEx.disk _ _ rfl (CommandEx.run_inPlace b)
    (fun h => by have := congrFun h 0; simp [FS.put, CommandEx.disk, FilterEx.early] at this)
example (b : Build) := C64_merge_partial b MergeEx.tau MergeCmdEx.micros CommandEx.sched MergeCmdEx.args MergeCmdEx.disk _ (by decide) (MergeCmdEx.run b)
example (b : Build) := C64_merge_in_place b MergeEx.tau MergeCmdEx.micros CommandEx.sched CommandEx.faithful MergeCmdEx.args MergeCmdEx.disk _ (MergeCmdEx.run b)

/-- Merging a file that is there and one that is not: an error, and an empty output file. -/
def missingInput : MergeArgs Nat := { MergeCmdEx.plain with inputs := [0, 9] }
theorem missingRun (b : Build) : MergeRun b MergeEx.tau MergeCmdEx.micros CommandEx.sched missingInput MergeCmdEx.disk .error (MergeCmdEx.disk.put 1 []) :=
  MergeRun.ran (res := .error []) (a := missingInput) (ord := []) (.inr rfl) rfl (by decide) (.openFails (p := 9) (by decide) (by decide))
example (b : Build) := C63_merge_partial b MergeEx.tau MergeCmdEx.micros CommandEx.sched CommandEx.faithful missingInput MergeCmdEx.disk _ _ (missingRun b) (by decide)

example (b : Build) (st : Status) (fs' : FS Nat) : MergeRun b MergeEx.tau MergeCmdEx.micros CommandEx.sched { MergeCmdEx.args with output := 0 } MergeCmdEx.disk st fs' ↔
    st = .error ∧ fs' = MergeCmdEx.disk :=
  C62_merge_refused b MergeEx.tau MergeCmdEx.micros CommandEx.sched { MergeCmdEx.args with output := 0 } MergeCmdEx.disk fs' st rfl (by decide +kernel)
example (b : Build) := C66_merge_command b MergeEx.tau MergeCmdEx.micros CommandEx.sched missingInput MergeCmdEx.disk (fun p c => (CommandEx.faithful p c).2.2)

/-! ## C77 to C79  Writes that fail -/

theorem cutShort (b : Build) : FilterRunW b FilterEx.tau RangesEx.ascii CommandEx.sched CommandEx.fine CommandEx.disk [.accept 3, .err (.other 28)] .error
    (CommandEx.disk.put 2 (FilterEx.early.take 3)) := by
  have hp : Filter.PacketsUntimed (CommandEx.sched 0 FilterEx.early) [⟨(FilterEx.earlyPkt 0).data, (FilterEx.earlyPkt 0).header.apid, Filter.minEpoch⟩] true :=
    ⟨[FilterEx.earlyPkt 0], _, .step rfl (.done rfl), rfl, rfl⟩
  exact FilterRunW.ran (a := CommandEx.fine) (fs := CommandEx.disk) (sched := CommandEx.sched) (ud := RangesEx.ascii) (content := FilterEx.early) (i := [1]) (e := []) (ok := false)
    (.inr rfl) (by decide) rfl CommandEx.parse1 CommandEx.parse0 (by decide) hp (by decide +kernel)

example (b : Build) := C77_filter b FilterEx.tau RangesEx.ascii CommandEx.sched CommandEx.fine CommandEx.disk _ _ _ (cutShort b)
example (b : Build) := C62_filter_writes b FilterEx.tau RangesEx.ascii CommandEx.sched CommandEx.fine CommandEx.disk _ _ _ (cutShort b)

/-- The merge of `MergeCmdEx` to an output that takes three bytes and then fails. -/
example (b : Build) : ∃ st fs', MergeRunW b MergeEx.tau MergeCmdEx.micros CommandEx.sched MergeCmdEx.args MergeCmdEx.disk [.accept 3, .err (.other 28)] st fs' ∧
    (∀ p, p ≠ 1 → fs' p = MergeCmdEx.disk p) ∧
    ∃ st0 fs0, MergeRun b MergeEx.tau MergeCmdEx.micros CommandEx.sched MergeCmdEx.args MergeCmdEx.disk st0 fs0 ∧ Cut 1 [.accept 3, .err (.other 28)] st fs' st0 fs0 := by
  obtain ⟨st, fs', h, _⟩ := C77_merge_total b MergeEx.tau MergeCmdEx.micros CommandEx.sched MergeCmdEx.args MergeCmdEx.disk _ [.accept 3, .err (.other 28)] _ (MergeCmdEx.run b)
  exact ⟨st, fs', h, (C62_merge_writes b _ _ _ _ _ _ _ _ h).1, C77_merge b _ _ _ _ _ _ _ _ h⟩

/-- The framing run of `FramingCmdEx`, to a new file and over an existing one. -/
example (b : Build) (k : Codec) : ∃ w, w.length = 16 ∧ (∀ p, FramingCmdEx.disk p ≠ none → (FramingCmdEx.disk.put 2 w) p = FramingCmdEx.disk p) ∧
    ∀ p, p ≠ 2 → (FramingCmdEx.disk.put 2 w) p = FramingCmdEx.disk p := by
  obtain ⟨w, hw, h⟩ := FramingCmdEx.run b k (fun _ => []) 2 [] (by simp [Healthy])
  exact ⟨w, hw, (C79_partial h (by intro p hp; cases hp; rfl) (by intro p hp; cases hp)).1, fun p hp => (C78_files h).1 p (fun e => hp (Option.some.inj e).symm) (by simp [FramingCmdEx.args])⟩

example (b : Build) (k : Codec) : ∃ w : List U8, w.length = 16 ∧ ∃ i e cfg r sm ws, Ranges.parse (fun _ => false) [] = some i ∧ Ranges.parse (fun _ => false) [] = some e ∧
    configOf (fun _ => none) FramingCmdEx.disk (FramingCmdEx.args 1) = some cfg ∧ FramingCmdEx.env.reader FramingCmdEx.disk (FramingCmdEx.disk.put 1 []) 0 = some r ∧
    Framing.Runs b k (framingArgs (FramingCmdEx.args 1) cfg i e) 1 r sm ws ∧ w = ws.flatten := by
  obtain ⟨w, hw, h⟩ := FramingCmdEx.run b k (fun _ => []) 1 [] (by simp [Healthy])
  obtain ⟨i, e, cfg, r, sm, ws, h1, h2, h3, h4, h5, h6⟩ := C79_overwrites h rfl (by simp [FramingCmdEx.args])
  exact ⟨w, hw, i, e, cfg, r, sm, ws, h1, h2, h3, h4, h5, by simpa [FS.put] using h6⟩

example (b : Build) (k : Codec) := C78_config (FramingCmdEx.run_in_place b k (fun _ => [])) rfl

/-- An output file that cannot be created: an error, nothing changed. -/
example (b : Build) (k : Codec) := C78_error (b := b) (k := k) (ud := fun _ => false) (parseCfg := fun _ => none) (render := fun _ => []) (workers := 1) (env := FramingCmdEx.env)
  (a := FramingCmdEx.args 2) (fs := FramingCmdEx.disk) (s := []) (.createFails (i := []) (e := []) (cfg := none) rfl rfl (by simp [Cmd.Inputs.reader, FramingCmdEx.env, FramingCmdEx.args]) rfl
    (show (8 : Nat) ≠ 0 by decide) (by decide)) (by simp [Healthy])

/-! ## C80, C81 -/

/-- A read error after the first of two packets. -/
def failing : Reader := ⟨[.data FilterEx.early, .err (.other 5), .data FilterEx.late], .eof⟩
theorem failsMidway : FailsMidway failing [.data FilterEx.early] (.other 5) [.data FilterEx.late] .eof :=
  ⟨rfl, by intro e he; simp only [List.mem_singleton] at he; exact .inl ⟨_, by decide, he⟩, by decide, by decide⟩
example := (C80_partial failing _ _ _ _ failsMidway [.ok (FilterEx.earlyPkt 0)] 0 _ (.step rfl (.done rfl))).2.2 _ rfl [.ok (FilterEx.latePkt 14)] _ (.step rfl (.done rfl))

theorem excl1 (b : Build) : Ranges.FilterCommand b FilterEx.tau RangesEx.ascii (Reader.ofBytes FilterEx.stream) [] [['1']] none none (some (.ok [FilterEx.late])) :=
  (C55_filter_command b FilterEx.tau (by decide) RangesEx.ascii _ _ FilterEx.decodes [] [['1']] [] [1] rfl (by decide +kernel) ⟨1, by simp, by decide⟩ _).2 (by decide +kernel)
example (b : Build) := C81_kept b FilterEx.tau (by decide) RangesEx.ascii RangesEx.ascii_class _ _ FilterEx.decodes [] [['1']] _ (excl1 b)

theorem notOnlyEnd : ∀ p ∈ [FilterEx.earlyPkt 0, FilterEx.latePkt 14], ¬ OnlyEndOfExcluded [['1']] p.header.apid.toNat := by
  rintro p _ ⟨⟨s, hs, a, b, x, e, _⟩, _⟩
  simp only [List.mem_singleton] at hs
  subst hs
  exact isNumber_no_dash HelpEx.n1 e
example (b : Build) := C81_partial b FilterEx.tau (by decide) RangesEx.ascii RangesEx.ascii_class _ _ FilterEx.decodes [] [['1']] _ (excl1 b) notOnlyEnd (.inl rfl)

/-- `framing --exclude 1-2` on a frame of channel 2. -/
def exclArgs : FramingArgs Nat := { FramingCmdEx.args 2 with excl := [['1', '-', '2']] }
example (f : Frame) := C81_framing RangesEx.ascii RangesEx.ascii_class exclArgs none [] [1, 2] rfl (by decide +kernel) f

/-! ## C66 -/

example : Ends (Reader.ofBytes FilterEx.stream) := C66_partial _ rfl
example : Ends failing := C66_partial _ rfl
example (b : Build) := C66_merge b MergeEx.tau MSEx.merger MSEx.files (fun p f hf => (MSEx.readable p f hf).2.2)

/-! ## C101  Crashes -/

/-- What the filtering of `cutShort` leaves, after any crash in it and at its end. -/
example (b : Build) : FilterAt b FilterEx.tau RangesEx.ascii CommandEx.sched CommandEx.fine CommandEx.disk [.accept 3, .err (.other 28)] (CommandEx.disk.put 2 (FilterEx.early.take 3)) :=
  filterAt_end b _ _ _ _ _ _ _ _ (cutShort b)
example (b : Build) : ∃ whole, (CommandEx.disk.put 2 FilterEx.early) 2 = some whole ∧ FilterEx.early.take 3 <+: whole := by
  have h := (C101_filter b _ _ _ _ _ _ _ (filterAt_end b _ _ _ _ _ _ _ _ (cutShort b))).2
  rcases h with h | ⟨_, part, hp, h⟩
  · have := congrFun h 2
    simp [FS.put, CommandEx.disk] at this
  · have hp : FilterEx.early.take 3 = part := by simpa [FS.put, CommandEx.fine] using hp
    subst hp
    exact h _ (CommandEx.run_fine b)

/-- 20 of 28 bytes: one of the two packets is read from what is left. -/
example : ∃ qs, Decodes (Reader.ofBytes (FilterEx.stream.take 20)) qs ∧ qs <+: [FilterEx.earlyPkt 0, FilterEx.latePkt 14] :=
  C101_readable (FilterEx.stream.take 20) FilterEx.stream (List.take_prefix _ _) _ _ (Merge.delivers (by decide)) FilterEx.delivers _ FilterEx.decodes

example (b : Build) : ∃ st fs', MergeAt b MergeEx.tau MergeCmdEx.micros CommandEx.sched MergeCmdEx.args MergeCmdEx.disk [.accept 3, .err (.other 28)] fs' ∧
    MergeRunW b MergeEx.tau MergeCmdEx.micros CommandEx.sched MergeCmdEx.args MergeCmdEx.disk [.accept 3, .err (.other 28)] st fs' ∧ ∀ p, p ≠ 1 → fs' p = MergeCmdEx.disk p := by
  obtain ⟨st, fs', h, _⟩ := C77_merge_total b MergeEx.tau MergeCmdEx.micros CommandEx.sched MergeCmdEx.args MergeCmdEx.disk _ [.accept 3, .err (.other 28)] _ (MergeCmdEx.run b)
  have h1 := mergeAt_end b _ _ _ _ _ _ _ _ h
  exact ⟨st, fs', h1, h, (C101_merge b _ _ _ CommandEx.faithful _ _ _ _ h1).1⟩

/-- The framing of `FramingCmdEx` with two different behaviours of the output. -/
example (b : Build) (k : Codec) : ∃ w, w.length = 16 ∧
    FramingAt b k (fun _ => false) (fun _ => none) (fun _ => []) 1 FramingCmdEx.env (FramingCmdEx.args 2) FramingCmdEx.disk [] (FramingCmdEx.disk.put 2 w) ∧
    (∀ fs', FramingCmd b k (fun _ => false) (fun _ => none) (fun _ => []) 1 FramingCmdEx.env (FramingCmdEx.args 2) FramingCmdEx.disk [.accept 5] .ok fs' → fs' = FramingCmdEx.disk.put 2 w) ∧
    ∀ p, p ≠ 2 → (FramingCmdEx.disk.put 2 w) p = FramingCmdEx.disk p := by
  obtain ⟨w, hw, h⟩ := FramingCmdEx.run b k (fun _ => []) 2 [] (by simp [Healthy])
  have h1 := framingAt_end b _ _ _ _ _ _ _ _ _ _ _ h
  exact ⟨w, hw, h1, fun fs' h' => C101_framing_unique b _ _ _ _ _ _ _ _ _ _ _ _ h' h,
    fun p hp => (C101_framing b _ _ _ _ _ _ _ _ _ _ h1).1 p (fun e => hp (Option.some.inj e).symm) (by simp [FramingCmdEx.args])⟩

end Ccsds.Cases.Commands
