import Verif.Props.Commands
/-!
# C67: what `ccsds merge` writes
-/
namespace Ccsds
open Cmd Spec Merger
variable {Path : Type} [DecidableEq Path]

/-! ## Specification -/

/-- The bounds of the time window: by default 1900-01-01 and 2200-01-01 UTC. -/
def windowFrom (micros : Epoch → Nat) (a : MergeArgs Path) : Epoch := match a.from? with | some e => ⟨.utc, micros e * 1000⟩ | none => ⟨.utc, 0⟩
def windowTo (micros : Epoch → Nat) (a : MergeArgs Path) : Epoch :=
  match a.to? with | some e => ⟨.utc, micros e * 1000⟩ | none => ⟨.utc, 109573 * 86400 * 1000000000⟩

/-- `out` consists of the groups `entries`: groups of the inputs, with a CDS time in the window and a selected APID; every such group once (up to copies:
groups of equal APID, sequence number and time); ascending in time, and for equal times with APIDs related by `tie`. -/
structure MergedOutput (b : Build) (τ : Epoch → Int) (micros : Epoch → Nat) (a : MergeArgs Path) (files : Path → Option MFile) (tie : U16 → U16 → Prop)
    (out : List U8) (entries : List (Entry Path)) : Prop where
  bytes : out = entries.flatMap Entry.bytes
  inputs : ∀ e ∈ entries, IsInput b τ (TimecodeDecoder.new (.cds 2 2)) (windowFrom micros a) (windowTo micros a) a.apids a.inputs files e
  distinct : (entries.map (Entry.key τ)).Nodup
  complete : ∀ e, IsInput b τ (TimecodeDecoder.new (.cds 2 2)) (windowFrom micros a) (windowTo micros a) a.apids a.inputs files e →
    e.key τ ∈ entries.map (Entry.key τ)
  times : entries.Pairwise fun x y => τ x.time ≤ τ y.time
  ties : entries.Pairwise fun x y => τ x.time = τ y.time → tie x.apid y.apid

/-- The order the documentation promises for equal times: no APID is written before one that belongs before it, and unlisted APIDs ascend. -/
def Documented (ord : List U16) (x y : U16) : Prop := ¬ Before ord y x ∧ (x ∉ ord → y ∉ ord → x.toNat ≤ y.toNat)

/-- The order in use: unlisted APIDs first, ascending, then the listed ones from the last to the first. -/
def Actual (ord : List U16) (x y : U16) : Prop :=
  (y ∉ ord → x ∉ ord ∧ x.toNat ≤ y.toNat) ∧ (∀ i j : Nat, ord[i]? = some x → ord[j]? = some y → j ≤ i)

/-- Full statement: a successful `ccsds merge` writes the merged inputs in the documented order. -/
def C67_full : Prop :=
  ∀ (b : Build) (τ : Epoch → Int) (micros : Epoch → Nat) (sched : Nat → List U8 → Reader) (a : MergeArgs Nat) (fs fs' : FS Nat) (ord : List U16),
    Faithful sched → a.output ∉ a.inputs → orderOf a = some ord → ord.Nodup → MergeRun b τ micros sched a fs .ok fs' →
    ∃ out entries, fs' = fs.put a.output out ∧ MergedOutput b τ micros a (fs.files sched) (Documented ord) out entries

theorem mergerOf_fields (micros : Epoch → Nat) (a : MergeArgs Path) (ord : List U16) :
    (mergerOf micros a ord).timeDecoder = TimecodeDecoder.new (.cds 2 2) ∧ (mergerOf micros a ord).fromEpoch = windowFrom micros a ∧
    (mergerOf micros a ord).toEpoch = windowTo micros a ∧ (mergerOf micros a ord).apids = a.apids ∧ (mergerOf micros a ord).paths = a.inputs ∧
    (mergerOf micros a ord).order = orderLoop [] 0 ord := by
  unfold windowFrom windowTo
  cases hfr : a.from? <;> cases hto : a.to? <;>
    simp [mergerOf, hfr, hto, withApids, withApidOrder, withFrom, withTo, Merger.new, fromEpoch, toEpoch, epochOrDefault, apids, days2200]

theorem actual_of_rank {m : Merger Path} {ord : List U16} (hm : m.order = orderLoop [] 0 ord) (hn : ord.Nodup) (hl : ord.length ≤ 2048) {x y : U16}
    (lx : x.toNat < 2048) (ly : y.toNat < 2048) (hr : rank m x ≤ rank m y) : Actual ord x y := by
  have e : ∀ a, rank m a = rank ((Merger.new (Path := Path) [] m.timeDecoder).withApidOrder ord) a := by
    intro a; unfold rank; rw [hm]; rfl
  rw [e, e] at hr
  obtain ⟨rx1, rx2⟩ := rank_order (Path := Path) [] m.timeDecoder ord hn x
  obtain ⟨ry1, ry2⟩ := rank_order (Path := Path) [] m.timeDecoder ord hn y
  constructor
  · intro hy'
    rw [ry2 hy'] at hr
    have hx' : x ∉ ord := by
      intro hx'
      obtain ⟨i, hi⟩ := List.mem_iff_getElem?.1 hx'
      rw [rx1 i hi] at hr
      have := (List.getElem?_eq_some_iff.1 hi).1
      omega
    rw [rx2 hx'] at hr
    exact ⟨hx', by omega⟩
  · intro i j hi hj
    rw [rx1 i hi, ry1 j hj] at hr
    omega

/-- What holds: everything but the order for equal times, which is the reverse of the given one, after the unlisted APIDs. -/
theorem C67_partial (b : Build) (τ : Epoch → Int) (micros : Epoch → Nat) (sched : Path → List U8 → Reader) (hs : Faithful sched) (a : MergeArgs Path)
    (fs fs' : FS Path) (ord : List U16) (hio : a.output ∉ a.inputs) (ho : orderOf a = some ord) (hn : ord.Nodup) (hl : ord.length ≤ 2048)
    (h : MergeRun b τ micros sched a fs .ok fs') :
    ∃ out entries, fs' = fs.put a.output out ∧ MergedOutput b τ micros a (fs.files sched) (Actual ord) out entries := by
  obtain ⟨ord', w, ho', hm, rfl⟩ := C64_merge_partial b τ micros sched a fs fs' hio h
  rw [ho] at ho'
  cases ho'
  have hr := files_readable fs sched hs
  obtain ⟨es, he⟩ := C21_merge b τ _ _ hr w hm
  obtain ⟨f1, f2, f3, f4, f5, f6⟩ := mergerOf_fields micros a ord
  have hin : ∀ e, Inputs b τ (mergerOf micros a ord) (fs.files sched) e ↔
      IsInput b τ (TimecodeDecoder.new (.cds 2 2)) (windowFrom micros a) (windowTo micros a) a.apids a.inputs (fs.files sched) e := by
    intro e; unfold Inputs; rw [f1, f2, f3, f4, f5]
  refine ⟨_, es, rfl, ?_, fun e h => (hin e).1 (he.inputs e h), he.distinct, fun e h => he.complete e ((hin e).2 h), ?_, ?_⟩
  · rw [he.bytes, List.flatMap_def]
  · exact he.sorted.imp fun h => by omega
  · refine he.sorted.imp_of_mem ?_
    intro x y hx hy hxy ht
    exact actual_of_rank f6 hn hl (input_apid_lt hr (he.inputs x hx)) (input_apid_lt hr (he.inputs y hy)) (by omega)

/-- Without `--apid-order` and `--apid-order-name` the output is ordered as documented, ties by ascending APID. -/
theorem C67_default (b : Build) (τ : Epoch → Int) (micros : Epoch → Nat) (sched : Path → List U8 → Reader) (hs : Faithful sched) (a : MergeArgs Path)
    (fs fs' : FS Path) (hio : a.output ∉ a.inputs) (ho : a.order = none) (hon : a.orderName = none) (h : MergeRun b τ micros sched a fs .ok fs') :
    ∃ out entries, fs' = fs.put a.output out ∧ MergedOutput b τ micros a (fs.files sched) (fun x y => x.toNat ≤ y.toNat) out entries := by
  obtain ⟨out, es, h1, h2⟩ := C67_partial b τ micros sched hs a fs fs' [] hio (by unfold orderOf; rw [ho, hon]; rfl) (by simp) (by simp) h
  exact ⟨out, es, h1, h2.bytes, h2.inputs, h2.distinct, h2.complete, h2.times, h2.ties.imp fun h ht => ((h ht).1 (by simp)).2⟩

/-- With `--apid-order-name jpss-viirs`: for equal times the packets of all other APIDs, then those of APID 821, then those of APID 826. -/
theorem C67_jpss_viirs (b : Build) (τ : Epoch → Int) (micros : Epoch → Nat) (sched : Path → List U8 → Reader) (hs : Faithful sched) (a : MergeArgs Path)
    (fs fs' : FS Path) (hio : a.output ∉ a.inputs) (hon : a.orderName = some "jpss-viirs".toList) (h : MergeRun b τ micros sched a fs .ok fs') :
    ∃ out entries, fs' = fs.put a.output out ∧
      MergedOutput b τ micros a (fs.files sched) (fun x y => (x = 826#16 → y = 826#16) ∧ (x = 821#16 → y = 821#16 ∨ y = 826#16)) out entries := by
  have ho : orderOf a = some [826#16, 821#16] := by
    unfold orderOf; rw [hon]
    show apidOrder _ = _
    unfold apidOrder
    rw [if_pos rfl]
  obtain ⟨out, es, h1, h2⟩ := C67_partial b τ micros sched hs a fs fs' [826#16, 821#16] hio ho (by decide) (by decide) h
  refine ⟨out, es, h1, h2.bytes, h2.inputs, h2.distinct, h2.complete, h2.times, h2.ties.imp fun {x y} h ht => ?_⟩
  obtain ⟨k1, k2⟩ := h ht
  have key : x.apid ∈ [826#16, 821#16] → y.apid ∈ [826#16, 821#16] := fun hx => by
    by_cases hy : y.apid ∈ [826#16, 821#16]
    · exact hy
    · exact absurd hx (k1 hy).1
  simp only [List.mem_cons, List.not_mem_nil, or_false] at key
  refine ⟨fun hx => ?_, fun hx => (key (.inr hx)).symm⟩
  rcases key (.inl hx) with h | h
  · exact h
  · have := k2 0 1 (by simp [hx]) (by simp [h])
    omega

/-! ## Witnesses -/
namespace MergeCmdEx

/-- A packet with a CDS time, of APID 821 or 826. -/
def bytes (low : U8) : List U8 := [0x0b#8, low, 0xc0#8, 0#8, 0#8, 7#8] ++ List.replicate 8 1#8
def pkt (low : U8) (off : Nat) : Packet := ⟨⟨0#8, 0#8, true, 3#8 ++ low, 3#8, 0#16, 7#16⟩, bytes low, off⟩
def content : List U8 := bytes 0x3a#8 ++ bytes 0x35#8
def disk : FS Nat := fun p => if p = 0 then some content else none
def args : MergeArgs Nat := ⟨[0], 1, false, none, some "jpss-viirs".toList, none, none, []⟩
def plain : MergeArgs Nat := { args with orderName := none }
def micros : Epoch → Nat := fun e => e.nanos / 1000
def ord : List U16 := [826#16, 821#16]

theorem order_args : orderOf args = some ord := by
  unfold orderOf args
  show apidOrder _ = _
  unfold apidOrder
  rw [if_pos rfl]; rfl

theorem groups : FileGroups (MergeEx.file content) [⟨826#16, [pkt 0x3a#8 0]⟩, ⟨821#16, [pkt 0x35#8 14]⟩] :=
  ⟨[pkt 0x3a#8 0, pkt 0x35#8 14], _, _, .step rfl (.step rfl (.done rfl)), .step rfl (.step rfl (.done rfl))⟩

def ptr (low : U8) (off : Nat) (order : Int) : Ptr Nat := ⟨0, off, 14, MergeEx.time, 3#8 ++ low, 0#16, order⟩

theorem loop (b : Build) : (mergerOf micros args ord).pointersLoop b MergeEx.tau 0 [⟨826#16, [pkt 0x3a#8 0]⟩, ⟨821#16, [pkt 0x35#8 14]⟩] [] =
    .ret [ptr 0x3a#8 0 4096, ptr 0x35#8 14 4095] := by
  cases b with | mk o => cases o <;> rfl

theorem merges (b : Build) : Merges b MergeEx.tau (mergerOf micros args ord) (MergeEx.files content) (.ok [bytes 0x35#8, bytes 0x3a#8]) :=
  MergeEx.merges_of (idx := [ptr 0x35#8 14 4095, ptr 0x3a#8 0 4096]) rfl groups (loop b) (by simp) (List.Perm.swap _ _ _) (by decide)

theorem run (b : Build) : MergeRun b MergeEx.tau micros CommandEx.sched args disk .ok (disk.put 1 (bytes 0x35#8 ++ bytes 0x3a#8)) := by
  have := MergeRun.ran (b := b) (τ := MergeEx.tau) (micros := micros) (sched := CommandEx.sched) (a := args) (fs := disk) (.inr rfl) order_args (by decide)
    (merges_congr (files' := (disk.put args.output []).files CommandEx.sched) (by
      intro p hp
      have : p = 0 := by simpa [mergerOf, args, Merger.withApids, Merger.withApidOrder, Merger.new] using hp
      subst this
      rfl) (merges b))
  simpa [mergeEnd, args] using this

end MergeCmdEx

open MergeCmdEx in
theorem C67_violated : ¬ C67_full := by
  intro h
  obtain ⟨out, es, h1, h2⟩ := h ⟨true⟩ _ _ _ _ _ _ ord CommandEx.faithful (by decide) order_args (by decide) (run _)
  have hb := congrFun h1 1
  simp only [FS.put, args, if_true, Option.some.injEq] at hb
  have hout : out = bytes 0x35#8 ++ bytes 0x3a#8 := hb.symm
  have hgrp : ∀ e ∈ es, e.time = MergeEx.time ∧ (e.group = ⟨826#16, [pkt 0x3a#8 0]⟩ ∨ e.group = ⟨821#16, [pkt 0x35#8 14]⟩) := by
    intro e he
    obtain ⟨p1, f, gs, p2, p3, p4, first, rest, q1, _, q2, _⟩ := h2.inputs e he
    have hp : e.path = 0 := by simpa [args] using p1
    rw [hp] at p2
    have hf : f = MergeEx.file content := by
      have : (disk.files CommandEx.sched) 0 = some (MergeEx.file content) := rfl
      rw [this] at p2
      cases p2; rfl
    subst hf
    have := fileGroups_unique p3 groups
    subst this
    simp only [List.mem_cons, List.not_mem_nil, or_false] at p4
    refine ⟨?_, p4⟩
    have hd : ∀ low off, (TimecodeDecoder.new (.cds 2 2)).decode ⟨true⟩ (pkt low off) = .ret (.ok MergeEx.time) := by
      intro low off
      have : (TimecodeDecoder.new (.cds 2 2)).decode ⟨true⟩ (pkt low off) = Timecode.decode ⟨true⟩ (.cds 2 2) (List.replicate 8 1#8) := rfl
      rw [this]; decide
    rcases p4 with p4 | p4 <;>
    · rw [p4] at q1
      simp only [List.cons.injEq] at q1
      rw [← q1.1, hd] at q2
      simpa using q2.symm
  have hlen := congrArg List.length h2.bytes
  have hb := h2.bytes
  rw [hout] at hlen hb
  have hl : ∀ e ∈ es, e.bytes.length = 14 := by
    intro e he
    rcases (hgrp e he).2 with g | g <;> (rw [Entry.bytes, g]; rfl)
  match es, hlen, hb, hgrp, hl, h2.ties with
  | [], hlen, _, _, _, _ => simp [bytes] at hlen
  | [x], hlen, _, _, hl, _ => have := hl x (by simp); simp [bytes, this] at hlen
  | x :: y :: z :: es, hlen, _, _, hl, _ =>
    have := hl x (by simp)
    have := hl y (by simp)
    have := hl z (by simp)
    simp only [List.flatMap_cons, List.length_append, bytes] at hlen
    simp at hlen
    omega
  | [x, y], _, hb, hgrp, _, ht =>
    obtain ⟨tx, gx⟩ := hgrp x (by simp)
    obtain ⟨ty, gy⟩ := hgrp y (by simp)
    have hxb : x.group = ⟨821#16, [pkt 0x35#8 14]⟩ ∧ y.group = ⟨826#16, [pkt 0x3a#8 0]⟩ := by
      rcases gx with gx | gx <;> rcases gy with gy | gy <;> simp only [List.flatMap_cons, List.flatMap_nil, Entry.bytes, gx, gy] at hb
      · exact absurd hb (by decide)
      · exact absurd hb (by decide)
      · exact ⟨gx, gy⟩
      · exact absurd hb (by decide)
    have hax : x.apid = 821#16 := by unfold Entry.apid; rw [hxb.1]; rfl
    have hay : y.apid = 826#16 := by unfold Entry.apid; rw [hxb.2]; rfl
    have := (List.pairwise_cons.1 ht).1 y (by simp) (by rw [tx, ty])
    rw [hax, hay] at this
    refine this.1 ⟨0, rfl, ?_⟩
    intro j hj
    match j, hj with
    | 0, hj => simp [ord] at hj
    | j + 1, _ => omega

/-- A successful run with the named order: 821 is written before 826. -/
example (b : Build) : MergeRun b MergeEx.tau MergeCmdEx.micros CommandEx.sched MergeCmdEx.args MergeCmdEx.disk .ok
    (MergeCmdEx.disk.put 1 (MergeCmdEx.bytes 0x35#8 ++ MergeCmdEx.bytes 0x3a#8)) := MergeCmdEx.run b

end Ccsds
