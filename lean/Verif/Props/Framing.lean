import Verif.Model.Framing
import Verif.Props.Pipeline
import Verif.Props.RsStage
import Verif.Proofs.Sizes
import Verif.Props.Info
/-!
# C57: `ccsds framing`
-/
namespace Ccsds
open Spec Framing

/-! ## Specification -/

/-- The frame is wanted: no fill frame unless fill is kept, VCID included (an empty list includes all) and not excluded. -/
def Wanted (a : Args) (f : Frame) : Prop :=
  (f.header.vcid = 63 → a.keepFill = true) ∧ (a.incl = [] ∨ f.header.vcid ∈ a.incl) ∧ f.header.vcid ∉ a.excl
instance (a : Args) (f : Frame) : Decidable (Wanted a f) := by unfold Wanted; infer_instance

/-- The counters are those of the frames `fs`. -/
structure Tallies (t : Tally) (fs : List Frame) : Prop where
  frames : t.frames = fs.length
  bytes : t.bytes = (fs.map fun f => f.data.length).sum
  missing : t.missing = (fs.map fun f => f.missing.toNat).sum
  ok : t.ok = fs.countP fun f => f.integrity = some .ok
  corrected : t.corrected = fs.countP fun f => f.integrity = some .corrected
  uncorrectable : t.uncorrectable = fs.countP fun f => f.integrity = some .uncorrectable ∨ f.integrity = some .notCorrected
  error : t.error = fs.countP fun f => f.integrity = some .failed
  notPerformed : t.notPerformed = fs.countP fun f => f.integrity = none

/-- The frame may be written: it was not checked, is intact, or was corrected. -/
def Acceptable (f : Frame) : Prop := f.integrity = none ∨ f.integrity = some .ok ∨ f.integrity = some .corrected
instance (f : Frame) : Decidable (Acceptable f) := by unfold Acceptable; infer_instance

/-- The frames that are counted. -/
def wanted (a : Args) (fs : List Frame) : List Frame := fs.filter fun f => decide (Wanted a f)
/-- Those of one channel. -/
def ofVcid (fs : List Frame) (v : U16) : List Frame := fs.filter fun f => decide (f.header.vcid = v)

/-! ## Proofs -/

theorem selected_iff (a : Args) (f : Frame) : selected a f = decide (Wanted a f) := by
  rw [Bool.eq_iff_iff, decide_eq_true_eq]
  unfold selected Wanted Frame.isFill VCDUHeader.FILL
  cases hi : a.incl with
  | nil =>
    cases he : a.excl with
    | nil => cases a.keepFill <;> simp
    | cons x xs => cases a.keepFill <;> simp
  | cons y ys =>
    cases he : a.excl with
    | nil => cases a.keepFill <;> simp
    | cons x xs => cases a.keepFill <;> simp [and_assoc]

theorem writable_iff (f : Frame) : writable f = decide (Acceptable f) := by
  rw [Bool.eq_iff_iff, decide_eq_true_eq]
  unfold writable Acceptable
  cases h : f.integrity with
  | none => simp
  | some i => cases i <;> simp

theorem tallies_default : Tallies .default [] := ⟨rfl, rfl, rfl, rfl, rfl, rfl, rfl, rfl⟩

theorem tallies_add (t : Tally) (fs : List Frame) (f : Frame) (h : Tallies t fs) : Tallies (t.add f) (fs ++ [f]) := by
  obtain ⟨h1, h2, h3, h4, h5, h6, h7, h8⟩ := h
  unfold Tally.add
  cases hi : f.integrity with
  | none => constructor <;> simp [h1, h2, h3, h4, h5, h6, h7, h8, List.countP_append, List.countP_cons, hi]
  | some i => cases i <;> constructor <;> simp [h1, h2, h3, h4, h5, h6, h7, h8, List.countP_append, List.countP_cons, hi]

/-- The frames are long enough to be written, as far as that is wanted. -/
def LongEnough (a : Args) (fs : List Frame) : Prop := a.output = true → ∀ f ∈ wanted a fs, Acceptable f → a.length ≤ f.data.length

structure FramingInv (a : Args) (fs : List Frame) (st : State) : Prop where
  summary : Tallies st.summary (wanted a fs)
  nodup : (HMap.keys st.vcids).Nodup
  absent : ∀ v, ofVcid (wanted a fs) v = [] → st.vcids.get? v = none
  entry : ∀ v, ofVcid (wanted a fs) v ≠ [] → ∃ t, st.vcids.get? v = some ⟨v, t⟩ ∧ Tallies t (ofVcid (wanted a fs) v)
  written : st.written = if a.output then ((wanted a fs).filter fun f => decide (Acceptable f)).map (fun f => f.data.take a.length) else []

theorem framing_step (a : Args) (fs : List Frame) (st : State) (f : Frame) (h : FramingInv a fs st) :
    (LongEnough a [f] → ∃ st', step a st f = .ret st' ∧ FramingInv a (fs ++ [f]) st') ∧ (¬ LongEnough a [f] → step a st f = .panic) := by
  have hw : wanted a (fs ++ [f]) = wanted a fs ++ if Wanted a f then [f] else [] := by
    unfold wanted
    rw [List.filter_append, List.filter_cons]
    by_cases hh : Wanted a f <;> simp [hh]
  unfold step
  rw [selected_iff, writable_iff]
  by_cases hsel : Wanted a f
  · rw [if_pos hsel] at hw
    simp only [hsel, decide_true, Bool.not_true, Bool.false_eq_true, ↓reduceIte]
    have hov : ∀ v, ofVcid (wanted a (fs ++ [f])) v = if f.header.vcid = v then ofVcid (wanted a fs) v ++ [f] else ofVcid (wanted a fs) v := by
      intro v
      rw [hw]
      unfold ofVcid
      rw [List.filter_append, List.filter_cons]
      by_cases hh : f.header.vcid = v <;> simp [hh]
    have hdef : Tallies ((st.vcids.get? f.header.vcid).getD ⟨0, .default⟩).tally (ofVcid (wanted a fs) f.header.vcid) := by
      by_cases he : ofVcid (wanted a fs) f.header.vcid = []
      · rw [h.absent _ he, he]; exact tallies_default
      · obtain ⟨t, h1, h2⟩ := h.entry _ he
        rw [h1]; exact h2
    have hinv : ∀ w, (w = if a.output then ((wanted a (fs ++ [f])).filter fun f => decide (Acceptable f)).map (fun f => f.data.take a.length) else []) →
        FramingInv a (fs ++ [f]) ⟨st.summary.add f, st.vcids.insert f.header.vcid
          ⟨f.header.vcid, ((st.vcids.get? f.header.vcid).getD ⟨0, .default⟩).tally.add f⟩, w⟩ := by
      intro w hwr
      refine ⟨by rw [hw]; exact tallies_add _ _ _ h.summary, HMap.nodup_insert _ _ _ h.nodup, ?_, ?_, hwr⟩
      · intro v hv
        rw [hov] at hv
        split at hv
        · simp at hv
        · rename_i hne
          simp only [HMap.get?_insert, hne, ↓reduceIte]
          exact h.absent v hv
      · intro v hv
        simp only [HMap.get?_insert]
        rw [hov] at hv ⊢
        split
        · rename_i he
          subst he
          exact ⟨_, rfl, tallies_add _ _ _ hdef⟩
        · rename_i hne
          rw [if_neg hne] at hv
          exact h.entry v hv
    have hle : LongEnough a [f] ↔ (a.output = true → Acceptable f → a.length ≤ f.data.length) := by
      unfold LongEnough wanted
      simp [hsel]
    by_cases hacc : Acceptable f
    · simp only [hacc, decide_true, Bool.not_true, Bool.false_eq_true, ↓reduceIte]
      cases ho : a.output with
      | false =>
        simp only [Bool.not_false, ↓reduceIte]
        refine ⟨fun _ => ⟨_, rfl, hinv _ ?_⟩, fun hn => absurd (hle.2 (by simp [ho])) hn⟩
        rw [h.written, ho]; simp
      | true =>
        simp only [Bool.not_true, Bool.false_eq_true, ↓reduceIte]
        constructor
        · intro hl
          have := hle.1 hl ho hacc
          rw [if_neg (by omega)]
          refine ⟨_, rfl, hinv _ ?_⟩
          rw [h.written, ho, hw, List.filter_append]
          simp [hacc]
        · intro hn
          rw [hle] at hn
          rw [if_pos]
          rcases Nat.lt_or_ge f.data.length a.length with hh | hh
          · exact hh
          · exact absurd (fun _ _ => hh) hn
    · simp only [hacc, decide_false, Bool.not_false, ↓reduceIte]
      refine ⟨fun _ => ⟨_, rfl, hinv _ ?_⟩, fun hn => absurd (hle.2 (fun _ hh => absurd hh hacc)) hn⟩
      rw [h.written, hw, List.filter_append]
      simp [hacc]
  · rw [if_neg hsel, List.append_nil] at hw
    simp only [hsel, decide_false, Bool.not_false, ↓reduceIte]
    refine ⟨fun _ => ⟨st, rfl, ?_⟩, fun hn => absurd ?_ hn⟩
    · constructor
      · rw [hw]; exact h.summary
      · exact h.nodup
      · rw [hw]; exact h.absent
      · rw [hw]; exact h.entry
      · rw [hw]; exact h.written
    · unfold LongEnough wanted
      simp [hsel]

theorem longEnough_cons (a : Args) (f : Frame) (fs : List Frame) : LongEnough a (f :: fs) ↔ LongEnough a [f] ∧ LongEnough a fs := by
  unfold LongEnough wanted
  constructor
  · intro h
    refine ⟨fun ho g hg => h ho g ?_, fun ho g hg => h ho g ?_⟩
    · rw [List.mem_filter, List.mem_singleton] at hg
      rw [List.mem_filter]
      exact ⟨by simp [hg.1], hg.2⟩
    · rw [List.mem_filter] at hg ⊢
      exact ⟨by simp [hg.1], hg.2⟩
  · rintro ⟨h1, h2⟩ ho g hg
    simp only [List.mem_filter, List.mem_cons] at hg
    rcases hg with ⟨rfl | hg, hs⟩
    · exact h1 ho g (by simpa using hs)
    · exact h2 ho g (by simp [hg]; simpa using hs)

theorem framing_loop (a : Args) (fs : List Frame) : ∀ (done : List Frame) (st : State), FramingInv a done st →
    (LongEnough a fs → ∃ st', loop a st fs = .ret st' ∧ FramingInv a (done ++ fs) st') ∧ (¬ LongEnough a fs → loop a st fs = .panic) := by
  induction fs with
  | nil =>
    intro done st h
    refine ⟨fun _ => ⟨st, rfl, by simpa using h⟩, fun hn => absurd ?_ hn⟩
    unfold LongEnough wanted
    simp
  | cons f fs ih =>
    intro done st h
    rw [longEnough_cons, loop]
    obtain ⟨h1, h2⟩ := framing_step a done st f h
    by_cases hf : LongEnough a [f]
    · obtain ⟨st1, e1, i1⟩ := h1 hf
      rw [e1]
      obtain ⟨k1, k2⟩ := ih (done ++ [f]) st1 i1
      constructor
      · rintro ⟨_, hl⟩
        obtain ⟨st2, e2, i2⟩ := k1 hl
        exact ⟨st2, e2, by simpa using i2⟩
      · intro hn
        exact k2 (fun hl => hn ⟨hf, hl⟩)
    · rw [h2 hf]
      exact ⟨fun h => absurd h.1 hf, fun _ => rfl⟩

theorem framing_init (a : Args) : FramingInv a [] ⟨.default, [], []⟩ := by
  refine ⟨tallies_default, ?_, ?_, ?_, ?_⟩ <;> simp [wanted, ofVcid, HMap.keys]

theorem sort_infos (l : List Info) (hn : (l.map (·.vcid)).Nodup) (infos : List Info) (hp : infos.Perm l) :
    infos.mergeSort (fun x y => x.vcid ≤ y.vcid) = l.mergeSort (fun x y => x.vcid ≤ y.vcid) ∧
      (l.mergeSort (fun x y => x.vcid ≤ y.vcid)).Pairwise (fun x y => x.vcid < y.vcid) := by
  have hsorted : ∀ l : List Info, (l.map (·.vcid)).Nodup → (l.mergeSort (fun x y => x.vcid ≤ y.vcid)).Pairwise (fun x y => x.vcid < y.vcid) := by
    intro l hl
    have a1 := List.pairwise_mergeSort (le := fun x y : Info => decide (x.vcid ≤ y.vcid))
      (fun a b c h k => by simp only [decide_eq_true_eq, BitVec.le_def] at *; omega)
      (fun a b => by simp only [Bool.or_eq_true, decide_eq_true_eq, BitVec.le_def]; omega) l
    have a2 : ((l.mergeSort (fun x y => decide (x.vcid ≤ y.vcid))).map (·.vcid)).Nodup := ((List.mergeSort_perm l _).map _).nodup_iff.2 hl
    have a2 := List.pairwise_map.1 a2
    refine a1.imp₂ ?_ a2
    intro a b h hne
    have h : a.vcid ≤ b.vcid := by simpa using h
    rcases Nat.lt_or_ge a.vcid.toNat b.vcid.toNat with hh | hh
    · exact BitVec.lt_def.2 hh
    · exact absurd (BitVec.eq_of_toNat_eq (Nat.le_antisymm (BitVec.le_def.1 h) hh)) hne
  refine ⟨?_, hsorted l hn⟩
  have hn' : (infos.map (·.vcid)).Nodup := (hp.map _).nodup_iff.2 hn
  refine List.Perm.eq_of_pairwise (le := fun x y : Info => x.vcid < y.vcid) ?_ (hsorted _ hn') (hsorted _ hn)
    ((List.mergeSort_perm _ _).trans (hp.trans (List.mergeSort_perm _ _).symm))
  intro a b _ _ h1 h2
  exact absurd (BitVec.lt_def.1 h1) (by have := BitVec.lt_def.1 h2; omega)

/-- What the command reports about the frames `fs` (those that are wanted). -/
structure FramingReport (fs : List Frame) (s : Framing.Summary) : Prop where
  /-- the totals -/
  total : Tallies s.tally fs
  /-- one line per virtual channel, in ascending order -/
  ascending : s.vcids.Pairwise fun x y => x.vcid < y.vcid
  /-- for exactly the channels that occur -/
  channels : ∀ v, (∃ i ∈ s.vcids, i.vcid = v) ↔ ∃ f ∈ fs, f.header.vcid = v
  /-- each with the counters of its own frames -/
  counts : ∀ i ∈ s.vcids, Tallies i.tally (ofVcid fs i.vcid)

theorem ofVcid_ne_nil (fs : List Frame) (v : U16) : ofVcid fs v ≠ [] ↔ ∃ f ∈ fs, f.header.vcid = v := by
  unfold ofVcid
  rw [ne_eq, List.filter_eq_nil_iff]
  simp

theorem framing_report (a : Args) (fs : List Frame) (st : State) (inv : FramingInv a fs st) (infos : List Info) (hp : infos.Perm (st.vcids.map (·.2))) :
    infos.mergeSort (fun x y => x.vcid ≤ y.vcid) = (st.vcids.map (·.2)).mergeSort (fun x y => x.vcid ≤ y.vcid) ∧
    FramingReport (wanted a fs) ⟨st.summary, (st.vcids.map (·.2)).mergeSort (fun x y => x.vcid ≤ y.vcid)⟩ := by
  have hentry : ∀ x ∈ st.vcids, x.2.vcid = x.1 ∧ ofVcid (wanted a fs) x.1 ≠ [] ∧ Tallies x.2.tally (ofVcid (wanted a fs) x.1) := by
    intro x hx
    have hg := (HMap.mem_iff_get? _ inv.nodup x.1 x.2).1 hx
    by_cases he : ofVcid (wanted a fs) x.1 = []
    · rw [inv.absent _ he] at hg; simp at hg
    · obtain ⟨t, h1, h2⟩ := inv.entry _ he
      rw [hg] at h1
      simp only [Option.some.injEq] at h1
      exact ⟨by rw [h1], he, by rw [h1]; exact h2⟩
  have hkeys : (st.vcids.map (·.2)).map (·.vcid) = HMap.keys st.vcids := by
    unfold HMap.keys
    rw [List.map_map]
    apply List.map_congr_left
    intro x hx
    exact (hentry x hx).1
  have hn : ((st.vcids.map (·.2)).map (·.vcid)).Nodup := by rw [hkeys]; exact inv.nodup
  refine ⟨(sort_infos _ hn _ hp).1, inv.summary, (sort_infos _ hn _ (.refl _)).2, ?_, ?_⟩
  · intro v
    rw [← ofVcid_ne_nil]
    constructor
    · rintro ⟨i, hi, rfl⟩
      rw [List.mem_mergeSort, List.mem_map] at hi
      obtain ⟨x, hx, rfl⟩ := hi
      obtain ⟨h1, h2, _⟩ := hentry x hx
      rw [h1]; exact h2
    · intro he
      obtain ⟨t, h1, _⟩ := inv.entry v he
      refine ⟨⟨v, t⟩, ?_, rfl⟩
      rw [List.mem_mergeSort, List.mem_map]
      exact ⟨(v, ⟨v, t⟩), (HMap.mem_iff_get? _ inv.nodup _ _).2 h1, rfl⟩
  · intro i hi
    rw [List.mem_mergeSort, List.mem_map] at hi
    obtain ⟨x, hx, rfl⟩ := hi
    obtain ⟨h1, _, h3⟩ := hentry x hx
    rw [h1]; exact h3

/-! ## C57 -/

/-- The command ends exactly when every frame to be written is long enough (otherwise it panics), and then, whatever the iteration order of
the hash map, it reports the wanted frames and writes, in order, the first `length` bytes of each wanted frame that was not checked, is
intact, or was corrected. -/
theorem C57_summary (a : Args) (fs : List Frame) :
    (∀ s w, Finishes a fs s w → FramingReport (wanted a fs) s ∧
      w = if a.output then ((wanted a fs).filter fun f => decide (Acceptable f)).map (fun f => f.data.take a.length) else []) ∧
    (∀ s s' w w', Finishes a fs s w → Finishes a fs s' w' → s = s' ∧ w = w') ∧
    ((∃ s w, Finishes a fs s w) ↔ LongEnough a fs) ∧
    (loop a ⟨.default, [], []⟩ fs = .panic ↔ ¬ LongEnough a fs) := by
  obtain ⟨h1, h2⟩ := framing_loop a fs [] _ (framing_init a)
  by_cases hl : LongEnough a fs
  · obtain ⟨st, e, inv⟩ := h1 hl
    rw [List.nil_append] at inv
    refine ⟨?_, ?_, ⟨fun _ => hl, fun _ => ⟨_, _, .mk e (.refl _)⟩⟩, by rw [e]; simp [hl]⟩
    · rintro s w ⟨e', hp⟩
      rw [e] at e'
      simp only [Outcome.ret.injEq] at e'
      subst e'
      obtain ⟨k1, k2⟩ := framing_report a fs _ inv _ hp
      rw [k1]
      exact ⟨k2, inv.written⟩
    · rintro s s' w w' ⟨e1, hp1⟩ ⟨e2, hp2⟩
      rw [e] at e1 e2
      simp only [Outcome.ret.injEq] at e1 e2
      subst e1 e2
      rw [(framing_report a fs _ inv _ hp1).1, (framing_report a fs _ inv _ hp2).1]
      exact ⟨rfl, rfl⟩
  · have e := h2 hl
    refine ⟨?_, ?_, ⟨?_, fun h => absurd h hl⟩, by rw [e]; simp [hl]⟩
    · rintro s w ⟨e', _⟩; rw [e] at e'; simp at e'
    · rintro s s' w w' ⟨e', _⟩; rw [e] at e'; simp at e'
    · rintro ⟨s, w, ⟨e', _⟩⟩; rw [e] at e'; simp at e'

theorem tallies_balance {t : Tally} {fs : List Frame} (h : Tallies t fs) :
    t.frames = t.ok + t.corrected + t.uncorrectable + t.error + t.notPerformed := by
  rw [h.frames, h.ok, h.corrected, h.uncorrectable, h.error, h.notPerformed]
  clear h
  induction fs with
  | nil => rfl
  | cons f fs ih =>
    simp only [List.length_cons, List.countP_cons]
    rw [ih]
    cases hi : f.integrity with
    | none => simp; omega
    | some i => cases i <;> simp <;> omega

/-- Every counted frame is in exactly one integrity class, in the totals and in every line. -/
theorem C57_balance (a : Args) (fs : List Frame) (s : Framing.Summary) (w : List (List U8)) (h : Finishes a fs s w) :
    s.tally.frames = s.tally.ok + s.tally.corrected + s.tally.uncorrectable + s.tally.error + s.tally.notPerformed ∧
    ∀ i ∈ s.vcids, i.tally.frames = i.tally.ok + i.tally.corrected + i.tally.uncorrectable + i.tally.error + i.tally.notPerformed := by
  obtain ⟨r, _⟩ := (C57_summary a fs).1 s w h
  exact ⟨tallies_balance r.total, fun i hi => tallies_balance (r.counts i hi)⟩

/-- The output is a sequence of records of exactly `length` bytes. -/
theorem C57_fixed (a : Args) (fs : List Frame) (s : Framing.Summary) (w : List (List U8)) (h : Finishes a fs s w) : ∀ x ∈ w, x.length = a.length := by
  have hl := (C57_summary a fs).2.2.1.1 ⟨s, w, h⟩
  have hw := ((C57_summary a fs).1 s w h).2
  rw [hw]
  intro x hx
  cases ho : a.output with
  | false => rw [ho] at hx; simp at hx
  | true =>
    rw [ho] at hx
    simp only [↓reduceIte, List.mem_map, List.mem_filter, decide_eq_true_eq] at hx
    obtain ⟨f, ⟨hf, hacc⟩, rfl⟩ := hx
    rw [List.length_take]
    have := hl ho f hf hacc
    omega

/-- The frames of the pipeline, on whatever input and with whatever codec, are long enough: reading to the end never panics at the slice. -/
theorem C57_pipeline (b : Build) (k : Codec) (a : Args) (workers : Nat) (r : Reader) :
    (∀ frames ended, Pipeline.Outputs b (config a workers) r frames ended → a.reedSolomon = none → ∃ s w, Finishes a frames s w) ∧
    (∀ st, Pipeline.Runs b k (config a workers) r st → ∃ s w, Finishes a st.got s w) := by
  have hbl : (config a workers).blockLength = a.length + 32 * (a.reedSolomon.getD 0).toNat := by
    unfold config
    cases a.reedSolomon <;> cases a.pn <;> rfl
  have hlen : ∀ frames ended, Pipeline.Outputs b (config a workers) r frames ended → ∀ f ∈ frames, f.data.length = a.length + 32 * (a.reedSolomon.getD 0).toNat := by
    rintro frames ended ⟨e, hy, _⟩ f hf
    rw [Pipeline.yields_length hy f hf]
    exact hbl
  constructor
  · intro frames ended h hn
    refine (C57_summary a frames).2.2.1.2 ?_
    intro _ f hf _
    have := hlen frames ended h f (List.mem_filter.1 hf).1
    omega
  · rintro st ⟨o, p, frames, ended, ho, hout, hr⟩
    refine (C57_summary a st.got).2.2.1.2 ?_
    intro _ f hf _
    have hf := (List.mem_filter.1 hf).1
    have hpre := C42_prefix p _ frames st hr
    have hm : Outcome.ret f ∈ frames.map (RS.job k o) := hpre.subset (List.mem_map_of_mem hf)
    obtain ⟨g, hg, hj⟩ := List.mem_map.1 hm
    have hgl := hlen frames ended hout g hg
    have hoi : o.interleave = a.reedSolomon.getD 0 := by
      unfold config at ho
      cases hrs : a.reedSolomon with
      | none => rw [hrs] at ho; cases hpn : a.pn <;> rw [hpn] at ho <;> simp [Pipeline.Config.new, Pipeline.Config.withoutDerandomization] at ho
      | some il =>
        rw [hrs] at ho
        simp only [Pipeline.Config.withRs, Option.some.injEq, Prod.mk.injEq] at ho
        rw [← ho.1]; rfl
    rcases RS.job_len k o g f hj with h | h
    · rw [h, hgl]; omega
    · rw [h, hgl, hoi]; omega

theorem sum_indicator (x : U16) (n : Nat) : ∀ (vs : List U16), vs.Nodup → (vs.map fun v => if x = v then n else 0).sum = if x ∈ vs then n else 0 := by
  intro vs
  induction vs with
  | nil => simp
  | cons v vs ih =>
    intro hn
    rw [List.nodup_cons] at hn
    rw [List.map_cons, List.sum_cons, ih hn.2]
    by_cases h : x = v
    · subst h; simp [hn.1]
    · simp [h]

theorem sum_channels (g : Frame → Nat) (vs : List U16) (hn : vs.Nodup) : ∀ (fs : List Frame), (∀ f ∈ fs, f.header.vcid ∈ vs) →
    (vs.map fun v => ((ofVcid fs v).map g).sum).sum = (fs.map g).sum := by
  intro fs
  induction fs with
  | nil => intro _; simp only [ofVcid, List.filter_nil, List.map_nil, List.sum_nil]; induction vs <;> simp_all
  | cons f fs ih =>
    intro h
    have hadd : ∀ vs : List U16, (vs.map fun v => ((ofVcid (f :: fs) v).map g).sum).sum
        = (vs.map fun v => if f.header.vcid = v then g f else 0).sum + (vs.map fun v => ((ofVcid fs v).map g).sum).sum := by
      intro vs
      induction vs with
      | nil => rfl
      | cons v vs ih2 =>
        rw [List.map_cons, List.sum_cons, ih2, List.map_cons, List.sum_cons, List.map_cons, List.sum_cons]
        unfold ofVcid
        rw [List.filter_cons]
        by_cases hv : f.header.vcid = v <;> simp [hv] <;> omega
    rw [hadd, sum_indicator _ _ _ hn, if_pos (h f (by simp)), ih (fun f hf => h f (by simp [hf]))]
    simp

theorem countP_sum (p : Frame → Bool) (fs : List Frame) : fs.countP p = (fs.map fun f => if p f then 1 else 0).sum := by
  induction fs with
  | nil => rfl
  | cons f fs ih => rw [List.countP_cons, ih, List.map_cons, List.sum_cons, Nat.add_comm]

/-- The totals are the sums over the virtual channels. -/
theorem C57_totals (a : Args) (fs : List Frame) (s : Framing.Summary) (w : List (List U8)) (h : Finishes a fs s w) :
    s.tally.frames = (s.vcids.map (·.tally.frames)).sum ∧ s.tally.bytes = (s.vcids.map (·.tally.bytes)).sum ∧
    s.tally.missing = (s.vcids.map (·.tally.missing)).sum ∧ s.tally.ok = (s.vcids.map (·.tally.ok)).sum ∧
    s.tally.corrected = (s.vcids.map (·.tally.corrected)).sum ∧ s.tally.uncorrectable = (s.vcids.map (·.tally.uncorrectable)).sum ∧
    s.tally.error = (s.vcids.map (·.tally.error)).sum ∧ s.tally.notPerformed = (s.vcids.map (·.tally.notPerformed)).sum := by
  obtain ⟨r, _⟩ := (C57_summary a fs).1 s w h
  have hn : (s.vcids.map (·.vcid)).Nodup := by
    unfold List.Nodup
    rw [List.pairwise_map]
    refine r.ascending.imp ?_
    intro x y h e
    rw [e] at h
    exact absurd (BitVec.lt_def.1 h) (Nat.lt_irrefl _)
  have hc : ∀ f ∈ wanted a fs, f.header.vcid ∈ s.vcids.map (·.vcid) := by
    intro f hf
    obtain ⟨i, hi, e⟩ := (r.channels f.header.vcid).2 ⟨f, hf, rfl⟩
    exact List.mem_map.2 ⟨i, hi, e⟩
  have key : ∀ (g : Frame → Nat) (u : Tally → Nat) (_ : ∀ t l, Tallies t l → u t = (l.map g).sum), u s.tally = (s.vcids.map (fun i => u i.tally)).sum := by
    intro g u hu
    rw [hu _ _ r.total, ← sum_channels g _ hn _ hc, List.map_map]
    congr 1
    apply List.map_congr_left
    intro i hi
    exact (hu _ _ (r.counts i hi)).symm
  refine ⟨key (fun _ => 1) (·.frames) ?_, key _ (·.bytes) fun _ _ h => h.bytes, key _ (·.missing) fun _ _ h => h.missing,
    key _ (·.ok) fun _ _ h => h.ok.trans (countP_sum _ _), key _ (·.corrected) fun _ _ h => h.corrected.trans (countP_sum _ _),
    key _ (·.uncorrectable) fun _ _ h => h.uncorrectable.trans (countP_sum _ _), key _ (·.error) fun _ _ h => h.error.trans (countP_sum _ _),
    key _ (·.notPerformed) fun _ _ h => h.notPerformed.trans (countP_sum _ _)⟩
  intro t l h
  rw [h.frames]
  clear h
  induction l with
  | nil => rfl
  | cons f l ih => rw [List.map_cons, List.sum_cons, List.length_cons, ih, Nat.add_comm]

/-! A concrete run: three wanted frames of two channels (one damaged), a fill frame, an excluded channel. -/

def exFramingArgs : Args := ⟨2, true, false, some 1, true, true, 0, none, 16, [], [7], true⟩
def exFramingFrame (v : U16) (i : Option Integrity) (d : List U8) : Frame := ⟨⟨1, 0, v, 0⟩, 1, i, d⟩
def exFramingFrames : List Frame :=
  [exFramingFrame 9 (some .ok) [1, 2], exFramingFrame 63 none [9, 9, 9], exFramingFrame 4 (some .corrected) [3, 4], exFramingFrame 7 (some .ok) [5, 6],
   exFramingFrame 9 (some .uncorrectable) [7, 8, 0]]

example : Finishes exFramingArgs exFramingFrames
    ⟨⟨3, 7, 3, 1, 1, 1, 0, 0⟩, [⟨4, ⟨1, 2, 1, 1, 0, 0, 0, 0⟩⟩, ⟨9, ⟨2, 5, 2, 0, 1, 1, 0, 0⟩⟩]⟩ [[1, 2], [3, 4]] := by
  have : Finishes exFramingArgs exFramingFrames _ _ := .mk (st := ⟨⟨3, 7, 3, 1, 1, 1, 0, 0⟩, [(9, ⟨9, ⟨2, 5, 2, 0, 1, 1, 0, 0⟩⟩), (4, ⟨4, ⟨1, 2, 1, 1, 0, 0, 0, 0⟩⟩)], [[1, 2], [3, 4]]⟩)
    (infos := [⟨4, ⟨1, 2, 1, 1, 0, 0, 0, 0⟩⟩, ⟨9, ⟨2, 5, 2, 0, 1, 1, 0, 0⟩⟩]) rfl (List.Perm.swap _ _ _)
  rw [List.mergeSort_of_pairwise] at this
  · exact this
  · simp

end Ccsds
