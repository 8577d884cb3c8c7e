import Verif.Props.Framing
import Verif.Props.Crash
import Verif.Props.Sizes
/-!
# C131: splitting a recording of frames by virtual channel

Three runs of `ccsds framing` on the same input: one of everything, one with `--include S`, one with `--exclude S`. The other options are the same; threads and buffer size may differ.
-/
namespace Ccsds
open Spec Framing

/-! ## Specification -/

namespace Spec

/-- `w` consists of the elements of `u` and those of `v`, both in their order. -/
inductive Interleaved {α : Type} : List α → List α → List α → Prop where
  | nil : Interleaved [] [] []
  | left {x : α} {u v w : List α} : Interleaved u v w → Interleaved (x :: u) v (x :: w)
  | right {x : α} {u v w : List α} : Interleaved u v w → Interleaved u (x :: v) (x :: w)

/-- Every counter of the first is the sum of those of the others. -/
structure Adds (t t1 t2 : Tally) : Prop where
  frames : t.frames = t1.frames + t2.frames
  bytes : t.bytes = t1.bytes + t2.bytes
  missing : t.missing = t1.missing + t2.missing
  corrected : t.corrected = t1.corrected + t2.corrected
  uncorrectable : t.uncorrectable = t1.uncorrectable + t2.uncorrectable
  ok : t.ok = t1.ok + t2.ok
  error : t.error = t1.error + t2.error
  notPerformed : t.notPerformed = t1.notPerformed + t2.notPerformed

end Spec

/-! ## Proofs -/

theorem Tallies.unique {t t' : Tally} {fs : List Frame} (h : Tallies t fs) (h' : Tallies t' fs) : t = t' := by
  obtain ⟨a1, a2, a3, a4, a5, a6, a7, a8⟩ := h
  obtain ⟨b1, b2, b3, b4, b5, b6, b7, b8⟩ := h'
  cases t; cases t'
  simp only at *
  subst a1 a2 a3 a4 a5 a6 a7 a8 b1 b2 b3 b4 b5 b6 b7 b8
  rfl

/-- A report lists its channels with their counters; that determines the list. -/
theorem vcids_unique : ∀ (l l' : List Info), l.Pairwise (fun x y => x.vcid < y.vcid) → l'.Pairwise (fun x y => x.vcid < y.vcid) → (∀ i, i ∈ l ↔ i ∈ l') → l = l' := by
  intro l
  induction l with
  | nil =>
    intro l' _ _ h
    cases l' with
    | nil => rfl
    | cons y ys => exact absurd ((h y).2 (by simp)) (by simp)
  | cons x xs ih =>
    intro l' hl hl' h
    cases l' with
    | nil => exact absurd ((h x).1 (by simp)) (by simp)
    | cons y ys =>
      rw [List.pairwise_cons] at hl hl'
      have hxy : x = y := by
        rcases List.mem_cons.1 ((h x).1 (by simp)) with e | hx
        · exact e
        · rcases List.mem_cons.1 ((h y).2 (by simp)) with e | hy
          · exact e.symm
          · have h1 := hl.1 y hy
            have h2 := hl'.1 x hx
            rw [BitVec.lt_def] at h1 h2
            omega
      subst hxy
      congr 1
      apply ih ys hl.2 hl'.2
      intro i
      constructor
      · intro hi
        rcases List.mem_cons.1 ((h i).1 (by simp [hi])) with e | hi'
        · subst e
          have := hl.1 _ hi
          rw [BitVec.lt_def] at this
          omega
        · exact hi'
      · intro hi
        rcases List.mem_cons.1 ((h i).2 (by simp [hi])) with e | hi'
        · subst e
          have := hl'.1 _ hi
          rw [BitVec.lt_def] at this
          omega
        · exact hi'

theorem mem_report {fs : List Frame} {s : Framing.Summary} (h : FramingReport fs s) (i : Info) :
    i ∈ s.vcids ↔ (∃ f ∈ fs, f.header.vcid = i.vcid) ∧ Tallies i.tally (ofVcid fs i.vcid) := by
  constructor
  · intro hi
    exact ⟨(h.channels i.vcid).1 ⟨i, hi, rfl⟩, h.counts i hi⟩
  · rintro ⟨h1, h2⟩
    obtain ⟨j, hj, e⟩ := (h.channels i.vcid).2 h1
    have := h.counts j hj
    rw [e] at this
    have e2 := this.unique h2
    obtain ⟨vj, tj⟩ := j
    obtain ⟨vi, ti⟩ := i
    simp only at e e2
    subst e e2
    exact hj

/-- The report about some of the channels is the part of the report about them. -/
theorem report_part (p : U16 → Bool) {fs : List Frame} {s s' : Framing.Summary} (h : FramingReport fs s) (h' : FramingReport (fs.filter fun f => p f.header.vcid) s') :
    s'.vcids = s.vcids.filter fun i => p i.vcid := by
  apply vcids_unique
  · exact h'.ascending
  · exact h.ascending.filter _
  · intro i
    rw [mem_report h', List.mem_filter, mem_report h]
    have e : p i.vcid = true → ofVcid (fs.filter fun f => p f.header.vcid) i.vcid = ofVcid fs i.vcid := by
      intro hp
      unfold ofVcid
      rw [List.filter_filter]
      apply List.filter_congr
      intro f _
      by_cases hv : f.header.vcid = i.vcid
      · simp [hv, hp]
      · simp [hv]
    constructor
    · rintro ⟨⟨f, hf, hv⟩, ht⟩
      obtain ⟨hf, hp⟩ := List.mem_filter.1 hf
      rw [hv] at hp
      exact ⟨⟨⟨f, hf, hv⟩, (e hp) ▸ ht⟩, hp⟩
    · rintro ⟨⟨⟨f, hf, hv⟩, ht⟩, hp⟩
      exact ⟨⟨f, List.mem_filter.2 ⟨hf, by rw [hv]; exact hp⟩, hv⟩, (e hp).symm ▸ ht⟩

theorem sum_split (p : Frame → Bool) (g : Frame → Nat) (fs : List Frame) :
    (fs.map g).sum = ((fs.filter p).map g).sum + ((fs.filter fun f => !p f).map g).sum := by
  induction fs with
  | nil => rfl
  | cons f fs ih => cases hp : p f <;> simp [hp] <;> omega

theorem count_split (p : Frame → Bool) (q : Frame → Bool) (fs : List Frame) :
    fs.countP q = (fs.filter p).countP q + (fs.filter fun f => !p f).countP q := by
  induction fs with
  | nil => rfl
  | cons f fs ih => cases hp : p f <;> cases hq : q f <;> simp [hp, hq] <;> omega

theorem tallies_split (p : Frame → Bool) {t t1 t2 : Tally} {fs : List Frame} (h : Tallies t fs) (h1 : Tallies t1 (fs.filter p)) (h2 : Tallies t2 (fs.filter fun f => !p f)) :
    Adds t t1 t2 where
  frames := by
    rw [h.frames, h1.frames, h2.frames]
    have := sum_split p (fun _ => 1) fs
    simp only [List.map_const', List.sum_replicate_nat, Nat.mul_one] at this
    exact this
  bytes := by rw [h.bytes, h1.bytes, h2.bytes]; exact sum_split p _ fs
  missing := by rw [h.missing, h1.missing, h2.missing]; exact sum_split p _ fs
  corrected := by rw [h.corrected, h1.corrected, h2.corrected]; exact count_split p _ fs
  uncorrectable := by rw [h.uncorrectable, h1.uncorrectable, h2.uncorrectable]; exact count_split p _ fs
  ok := by rw [h.ok, h1.ok, h2.ok]; exact count_split p _ fs
  error := by rw [h.error, h1.error, h2.error]; exact count_split p _ fs
  notPerformed := by rw [h.notPerformed, h1.notPerformed, h2.notPerformed]; exact count_split p _ fs

theorem interleaved_filter {α β : Type} (p : α → Bool) (g : α → β) (l : List α) : Interleaved ((l.filter p).map g) ((l.filter fun x => !p x).map g) (l.map g) := by
  induction l with
  | nil => exact .nil
  | cons x l ih => cases hp : p x <;> simp [hp] <;> first | exact .left ih | exact .right ih

/-- Runs whose options agree but for the channels, the threads and the buffer size see the same frames. -/
theorem same_frames {b : Build} {k : Codec} {a : Args} {n : Nat} {r : Reader} {s : Framing.Summary} {w : List (List U8)} (h : Runs b k a n r s w) :
    ∃ frames, ∀ (a' : Args) (n' : Nat) (s' : Framing.Summary) (w' : List (List U8)), a'.length = a.length → a'.pn = a.pn → a'.reedSolomon = a.reedSolomon → a'.detect = a.detect →
      a'.correct = a.correct → a'.virtualfill = a.virtualfill → Runs b k a' n' r s' w' → Finishes a' frames s' w' := by
  cases h with
  | @plain frames _ _ h1 h2 h3 =>
    refine ⟨frames, ?_⟩
    intro a' n' s' w' hl hp hr hd hc hv h'
    cases h' with
    | rs k1 => rw [hr, h1] at k1; cases k1
    | plain k1 k2 k3 =>
      have : config a' n' = config a n := by
        unfold config
        rw [hl, hp, hr, h1]
      rw [this] at k2
      obtain ⟨rfl, _⟩ := C52_deterministic b _ r _ _ _ _ h2 k2
      exact k3
  | @rs il st _ _ h1 h2 h3 h4 =>
    refine ⟨st.got, ?_⟩
    intro a' n' s' w' hl hp hr hd hc hv h'
    cases h' with
    | plain k1 => rw [hr, h1] at k1; cases k1
    | @rs il' st' _ _ k1 k2 k3 k4 =>
      have e : ∀ (a : Args) (n : Nat), a.reedSolomon = some il → ∃ d, config a n = ⟨d, some (⟨il, a.virtualfill, a.detect || a.correct, a.correct⟩, ⟨a.buffersize, n⟩), a.length + RS.PARITY_LEN * il.toNat⟩ ∧ d = a.pn := by
        intro a n ha
        unfold config
        rw [ha]
        cases a.pn <;> exact ⟨_, rfl, rfl⟩
      obtain ⟨d1, c1, e1⟩ := e a n h1
      obtain ⟨d2, c2, e2⟩ := e a' n' (hr.trans h1)
      rw [hl, hd, hc, hv] at c2
      rw [hp, ← e1] at e2
      subst e2
      rw [c1] at h2
      rw [c2] at k2
      obtain ⟨o, p, fr, en, g1, g2, g3⟩ := h2
      obtain ⟨o', p', fr', en', l1, l2, l3⟩ := k2
      cases Option.some.inj g1
      cases Option.some.inj l1
      obtain ⟨rfl, _⟩ := C52_deterministic b _ r _ _ _ _ g2 l2
      have := (C42_none _ _ _ _ g3 h3).trans (C42_none _ _ _ _ l3 k3).symm
      have := List.map_inj_right (fun a b h => by cases h; rfl) |>.1 this
      rw [this]
      exact k4

/-- What is wanted with `--include S`, of what is wanted without. -/
theorem wanted_include (a : Args) (S : List U16) (hi : a.incl = []) (hS : S ≠ []) (t : Option Nat) (m : Nat) (fs : List Frame) :
    wanted { a with incl := S, threads := t, buffersize := m } fs = (wanted a fs).filter fun f => decide (f.header.vcid ∈ S) := by
  unfold wanted
  rw [List.filter_filter]
  apply List.filter_congr
  intro f _
  rw [Bool.eq_iff_iff]
  simp only [Bool.and_eq_true, decide_eq_true_eq, Wanted, hi, hS, false_or, true_or, true_and]
  constructor
  · rintro ⟨h1, h2, h3⟩; exact ⟨h2, h1, h3⟩
  · rintro ⟨h1, h2, h3⟩; exact ⟨h2, h1, h3⟩

/-- What is wanted with `--exclude S`. -/
theorem wanted_exclude (a : Args) (S : List U16) (he : a.excl = []) (t : Option Nat) (m : Nat) (fs : List Frame) :
    wanted { a with excl := S, threads := t, buffersize := m } fs = (wanted a fs).filter fun f => !decide (f.header.vcid ∈ S) := by
  unfold wanted
  rw [List.filter_filter]
  apply List.filter_congr
  intro f _
  rw [Bool.eq_iff_iff]
  rw [Bool.and_eq_true, decide_eq_true_eq, decide_eq_true_eq, Bool.not_eq_true', decide_eq_false_iff_not]
  simp only [Wanted, he]
  constructor
  · rintro ⟨h1, h2, h3⟩; exact ⟨h3, h1, h2, by simp⟩
  · rintro ⟨h1, h2, h3, _⟩; exact ⟨h2, h3, h1⟩

theorem filter_comm' {α : Type} (p q : α → Bool) (l : List α) : (l.filter p).filter q = (l.filter q).filter p := by
  rw [List.filter_filter, List.filter_filter]
  apply List.filter_congr
  intro x _
  cases p x <;> cases q x <;> rfl

/-- C131. The run with `--include S` reports exactly the lines of the full report for the channels of `S`, the run with `--exclude S` exactly the others; the totals add up; and the records
of the full output are those of the two, each record in one of them, in their order. -/
theorem C131_split (b : Build) (k : Codec) (a : Args) (hi : a.incl = []) (he : a.excl = []) (S : List U16) (hS : S ≠ []) (r : Reader)
    (t1 t2 : Option Nat) (m1 m2 n n1 n2 : Nat) (s s1 s2 : Framing.Summary) (w w1 w2 : List (List U8)) (h : Runs b k a n r s w)
    (h1 : Runs b k { a with incl := S, threads := t1, buffersize := m1 } n1 r s1 w1) (h2 : Runs b k { a with excl := S, threads := t2, buffersize := m2 } n2 r s2 w2) :
    s1.vcids = s.vcids.filter (fun i => decide (i.vcid ∈ S)) ∧ s2.vcids = s.vcids.filter (fun i => !decide (i.vcid ∈ S)) ∧ Adds s.tally s1.tally s2.tally ∧ Interleaved w1 w2 w := by
  obtain ⟨fr, hf⟩ := same_frames h
  have f0 := hf a n s w rfl rfl rfl rfl rfl rfl h
  have f1 := hf { a with incl := S, threads := t1, buffersize := m1 } n1 s1 w1 rfl rfl rfl rfl rfl rfl h1
  have f2 := hf { a with excl := S, threads := t2, buffersize := m2 } n2 s2 w2 rfl rfl rfl rfl rfl rfl h2
  obtain ⟨r0, o0⟩ := (C57_summary a fr).1 s w f0
  obtain ⟨r1, o1⟩ := (C57_summary _ fr).1 s1 w1 f1
  obtain ⟨r2, o2⟩ := (C57_summary _ fr).1 s2 w2 f2
  rw [wanted_include a S hi hS] at r1 o1
  rw [wanted_exclude a S he] at r2 o2
  refine ⟨report_part (fun v => decide (v ∈ S)) r0 r1, report_part (fun v => !decide (v ∈ S)) r0 r2, tallies_split _ r0.total r1.total r2.total, ?_⟩
  simp only at o1 o2
  rw [o0, o1, o2]
  cases a.output with
  | false => exact .nil
  | true =>
    simp only [if_true]
    rw [filter_comm' _ (fun f : Frame => decide (Acceptable f)), filter_comm' _ (fun f : Frame => decide (Acceptable f))]
    exact interleaved_filter (fun f : Frame => decide (f.header.vcid ∈ S)) (fun f => f.data.take a.length) _

theorem yields_header {b : Build} {d : Bool} {s : Pipeline.State} {fs : List Frame} {e : Option Pipeline.State} (h : Pipeline.Yields b d s fs e) :
    ∀ f ∈ fs, VCDUHeader.decode f.data = some f.header := by
  induction h with
  | done => simp
  | stop => simp
  | panicked => simp
  | @frame s y blk t f fs e hp hn hy ih =>
    intro g hg
    rcases List.mem_cons.1 hg with rfl | hg
    · unfold FrameDecoder.next at hn
      simp only at hn
      cases hv : VCDUHeader.decode (Pipeline.prep d blk).data with
      | none => rw [hv] at hn; simp at hn
      | some hdr =>
        rw [hv] at hn
        simp only at hn
        split at hn
        · rename_i last _
          cases hm : missingFrames b hdr.counter last with
          | panic => rw [hm] at hn; simp [Bind.bind, Outcome.bind] at hn
          | ret m =>
            rw [hm] at hn
            simp only [Bind.bind, Outcome.bind, Outcome.ret.injEq, Prod.mk.injEq, Option.some.injEq] at hn
            rw [← hn.1]; exact hv
        · simp only [Bind.bind, Outcome.bind, Outcome.ret.injEq, Prod.mk.injEq, Option.some.injEq] at hn
          rw [← hn.1]; exact hv
    · exact ih g hg

/-- The record is a frame of one of these channels. -/
def OfChannels (S : List U16) (d : List U8) : Prop := ∃ h, VCDUHeader.decode d = some h ∧ h.vcid ∈ S
instance (S : List U16) (d : List U8) : Decidable (OfChannels S d) :=
  decidable_of_iff ((VCDUHeader.decode d).any (fun h => decide (h.vcid ∈ S)) = true) (by
    unfold OfChannels
    cases VCDUHeader.decode d with
    | none => simp
    | some h => simp)

/-- C131 without Reed–Solomon: the records written with `--include S` are those of the full output whose header names a channel of `S`, and with `--exclude S` the others. -/
theorem C131_records (b : Build) (k : Codec) (a : Args) (hrs : a.reedSolomon = none) (hi : a.incl = []) (he : a.excl = []) (S : List U16) (hS : S ≠ []) (r : Reader)
    (t1 t2 : Option Nat) (m1 m2 n n1 n2 : Nat) (s s1 s2 : Framing.Summary) (w w1 w2 : List (List U8)) (h : Runs b k a n r s w)
    (h1 : Runs b k { a with incl := S, threads := t1, buffersize := m1 } n1 r s1 w1) (h2 : Runs b k { a with excl := S, threads := t2, buffersize := m2 } n2 r s2 w2) :
    w1 = w.filter (fun d => decide (OfChannels S d)) ∧ w2 = w.filter (fun d => !decide (OfChannels S d)) := by
  cases h with
  | rs k1 => rw [hrs] at k1; cases k1
  | @plain fr _ _ k1 k2 k3 =>
  cases h1 with
  | rs l1 => rw [show a.reedSolomon = none from hrs] at l1; cases l1
  | plain l1 l2 l3 =>
  cases h2 with
  | rs j1 => rw [show a.reedSolomon = none from hrs] at j1; cases j1
  | plain j1 j2 j3 =>
    have c : ∀ (a' : Args) (n' : Nat), a'.length = a.length → a'.pn = a.pn → a'.reedSolomon = a.reedSolomon → config a' n' = config a n := by
      intro a' n' hl hp hr
      unfold config
      rw [hl, hp, hr, hrs]
    rw [c { a with incl := S, threads := t1, buffersize := m1 } n1 rfl rfl rfl] at l2
    rw [c { a with excl := S, threads := t2, buffersize := m2 } n2 rfl rfl rfl] at j2
    obtain ⟨rfl, _⟩ := C52_deterministic b _ r _ _ _ _ k2 l2
    obtain ⟨rfl, _⟩ := C52_deterministic b _ r _ _ _ _ k2 j2
    have o0 := ((C57_summary a fr).1 s w k3).2
    have o1 := ((C57_summary _ fr).1 s1 w1 l3).2
    have o2 := ((C57_summary _ fr).1 s2 w2 j3).2
    rw [wanted_include a S hi hS] at o1
    rw [wanted_exclude a S he] at o2
    simp only at o1 o2
    rw [o0, o1, o2]
    cases a.output with
    | false => exact ⟨rfl, rfl⟩
    | true =>
      simp only [if_true]
      have hlen : ∀ f ∈ fr, f.data.length = a.length := by
        intro f hf
        rw [C61_frames b _ r fr true k2 f hf]
        unfold config
        rw [hrs]
        cases a.pn <;> simp [Pipeline.Config.new, Pipeline.Config.withoutDerandomization]
      have hh : ∀ f ∈ fr, decide (OfChannels S (f.data.take a.length)) = decide (f.header.vcid ∈ S) := by
        intro f hf
        obtain ⟨e, hy, _⟩ := k2
        have hd := yields_header hy f hf
        rw [decide_eq_decide, ← hlen f hf, List.take_length]
        unfold OfChannels
        rw [hd]
        simp
      rw [filter_comm' _ (fun f : Frame => decide (Acceptable f)), filter_comm' _ (fun f : Frame => decide (Acceptable f)), List.filter_map, List.filter_map]
      constructor
      · congr 1
        apply List.filter_congr
        intro f hf
        exact (hh f (List.mem_filter.1 (List.mem_filter.1 hf).1).1).symm
      · congr 1
        apply List.filter_congr
        intro f hf
        simp only [Function.comp]
        rw [hh f (List.mem_filter.1 (List.mem_filter.1 hf).1).1]

/-- Such runs finish when one does (shown for the same threads and buffer size). -/
theorem C131_finish (b : Build) (k : Codec) (a : Args) (r : Reader) (n : Nat) (s : Framing.Summary) (w : List (List U8)) (h : Runs b k a n r s w) (incl excl : List U16) :
    ∃ s' w', Runs b k { a with incl := incl, excl := excl } n r s' w' := by
  cases h with
  | @plain frames _ _ h1 h2 h3 =>
    obtain ⟨s', w', e⟩ := (C57_pipeline b k { a with incl := incl, excl := excl } n r).1 frames _ h2 h1
    exact ⟨s', w', .plain h1 h2 e⟩
  | @rs il st _ _ h1 h2 h3 h4 =>
    obtain ⟨s', w', e⟩ := (C57_pipeline b k { a with incl := incl, excl := excl } n r).2 st h2
    exact ⟨s', w', .rs h1 h2 h3 e⟩

/-- With both options: a channel that is included and excluded is excluded. If some included channel remains, the result is that of including those that remain; if none remains, nothing is
reported and nothing is written (although an empty list of included channels by itself means all of them). -/
theorem C131_both (b : Build) (k : Codec) (a : Args) (he : a.excl = []) (S T : List U16) (hS : S ≠ []) (r : Reader) (n n' : Nat) (s s' : Framing.Summary) (w w' : List (List U8))
    (h : Runs b k { a with incl := S, excl := T } n r s w) :
    (S.filter (fun v => !decide (v ∈ T)) ≠ [] → Runs b k { a with incl := S.filter fun v => !decide (v ∈ T) } n' r s' w' → s' = s ∧ w' = w) ∧
    (S.filter (fun v => !decide (v ∈ T)) = [] → s = ⟨⟨0, 0, 0, 0, 0, 0, 0, 0⟩, []⟩ ∧ w = []) := by
  obtain ⟨fr, hf⟩ := same_frames h
  have f0 := hf { a with incl := S, excl := T } n s w rfl rfl rfl rfl rfl rfl h
  obtain ⟨r0, o0⟩ := (C57_summary _ fr).1 s w f0
  constructor
  · intro hne h'
    have f1 := hf { a with incl := S.filter fun v => !decide (v ∈ T) } n' s' w' rfl rfl rfl rfl rfl rfl h'
    obtain ⟨r1, o1⟩ := (C57_summary _ fr).1 s' w' f1
    have e : wanted { a with incl := S.filter fun v => !decide (v ∈ T) } fr = wanted { a with incl := S, excl := T } fr := by
      unfold wanted
      apply List.filter_congr
      intro f _
      rw [decide_eq_decide]
      simp only [Wanted, hS, hne, he, false_or, List.mem_filter, Bool.not_eq_true', decide_eq_false_iff_not, List.not_mem_nil, not_false_eq_true, and_true]
    rw [e] at r1 o1
    refine ⟨?_, o1.trans o0.symm⟩
    have hv : s'.vcids = s.vcids := vcids_unique _ _ r1.ascending r0.ascending fun i => by rw [mem_report r1, mem_report r0]
    have ht := r1.total.unique r0.total
    cases s; cases s'
    simp only at hv ht
    rw [hv, ht]
  · intro hnil
    have e : wanted { a with incl := S, excl := T } fr = [] := by
      unfold wanted
      rw [List.filter_eq_nil_iff]
      intro f _
      rw [decide_eq_true_eq]
      rintro ⟨_, h2, h3⟩
      rcases h2 with h2 | h2
      · exact hS h2
      · have : f.header.vcid ∈ S.filter fun v => !decide (v ∈ T) := List.mem_filter.2 ⟨h2, by simpa using h3⟩
        rw [hnil] at this
        simp at this
    rw [e] at r0 o0
    constructor
    · have hv : s.vcids = [] := List.eq_nil_iff_forall_not_mem.2 fun i hi => by
        obtain ⟨⟨f, hf, _⟩, _⟩ := (mem_report r0 i).1 hi
        simp at hf
      have ht : s.tally = ⟨0, 0, 0, 0, 0, 0, 0, 0⟩ := r0.total.unique ⟨rfl, rfl, rfl, rfl, rfl, rfl, rfl, rfl⟩
      cases s
      simp only at hv ht
      rw [hv, ht]
    · rw [o0]; simp

/-! ## A concrete case: three frames of the channels 43, 5 and 43, not randomized -/
namespace ChannelsEx

def one : List U8 := [0x67#8, 0x6b#8, 0#8, 0#8, 5#8, 0#8, 1#8, 2#8]
def two : List U8 := [0x67#8, 0x45#8, 0#8, 0#8, 9#8, 0#8, 3#8, 4#8]
def three : List U8 := [0x67#8, 0x6b#8, 0#8, 0#8, 8#8, 0#8, 5#8, 6#8]
def stream : List U8 := Sync.ASM ++ one ++ Sync.ASM ++ two ++ Sync.ASM ++ three
def reader : Reader := ⟨[.data stream], .eof⟩
def args : Args := ⟨8, false, false, none, false, false, 0, none, 16, [], [], true⟩

theorem outputs (b : Build) : ∃ frames, Pipeline.Outputs b (config args 1) reader frames true ∧ frames.map (·.data) = [one, two, three] ∧
    ∀ f ∈ frames, VCDUHeader.decode f.data = some f.header ∧ f.integrity = none := by
  obtain ⟨frames, h1, h2, h3, _⟩ := C52_increasing b false reader stream 8 [] [] [one, two, three]
    ⟨by intro e he
        simp only [reader, List.mem_cons, List.not_mem_nil, or_false] at he
        subst he
        exact ⟨_, by decide, rfl⟩, by decide, rfl⟩
    (by decide) (by decide)
    (by intro d hd; exact Option.isSome_iff_exists.1 ((by decide +kernel : ∀ d ∈ [one, two, three], (VCDUHeader.decode d).isSome = true) d hd))
    (by decide +kernel)
    (by
      refine ⟨by omega, List.prefix_iff_eq_take.2 (by decide +kernel), ?_⟩
      intro j _ hj hoc
      simp at hj)
    (by
      intro i hi hoc
      have := hoc.length_le
      rw [List.length_drop, show (bits Sync.ASM).length = 32 from by decide, show (bits stream).length = 288 from by decide +kernel] at this
      simp only [List.length_cons, List.length_nil] at hi
      omega)
    (by
      intro i d h p hd hh hp
      have key : ∀ (x : List U8) (v : U16) (c c' : U32) (pre : List (List U8)), VCDUHeader.decode x = some h → (VCDUHeader.decode x).map (fun h => (h.vcid, h.counter)) = some (v, c) →
          lastOfChannel (pre.map blk) h.vcid = some p → (lastOfChannel (pre.map blk) v).map (·.counter) = some c' → c' < c → p.counter < h.counter := by
        intro x v c c' pre e1 e2 e3 e4 e5
        rw [e1] at e2
        simp only [Option.map_some, Option.some.injEq, Prod.mk.injEq] at e2
        rw [e2.1] at e3
        rw [e3] at e4
        simp only [Option.map_some, Option.some.injEq] at e4
        rw [e2.2, e4]; exact e5
      match i with
      | 0 => simp [lastOfChannel] at hp
      | 1 =>
        have hd' : d = two := by simpa using hd.symm
        subst hd'
        have e2 : (VCDUHeader.decode two).map (fun h => h.vcid) = some 5#16 := by decide +kernel
        have hh' : VCDUHeader.decode two = some h := hh
        rw [hh'] at e2
        simp only [Option.map_some, Option.some.injEq] at e2
        rw [e2] at hp
        have : lastOfChannel (([one, two, three].take 1).map blk) 5#16 = none := by decide +kernel
        rw [this] at hp
        cases hp
      | 2 =>
        have hd' : d = three := by simpa using hd.symm
        subst hd'
        exact key three 43#16 8#32 5#32 _ hh (by decide +kernel) hp (by decide +kernel) (by decide)
      | n + 3 => simp at hd)
  exact ⟨frames, h1, h2, h3⟩

/-- `--include 43`: the frames of channel 43 are written, and the other with `--exclude 43`. -/
example (b : Build) (k : Codec) : ∃ s w s1 w1 s2 w2, Runs b k args 1 reader s w ∧ Runs b k { args with incl := [43] } 1 reader s1 w1 ∧ Runs b k { args with excl := [43] } 1 reader s2 w2 ∧
    w = [one, two, three] ∧ w1 = [one, three] ∧ w2 = [two] ∧ s1.vcids = s.vcids.filter (fun i => decide (i.vcid ∈ [43])) ∧ Interleaved w1 w2 w ∧ w1 = w.filter (fun d => decide (OfChannels [43] d)) := by
  obtain ⟨frames, h1, h2, h3⟩ := outputs b
  obtain ⟨s, w, e⟩ := (C57_pipeline b k args 1 reader).1 frames _ h1 rfl
  have h := Runs.plain (k := k) (a := args) rfl h1 e
  obtain ⟨s1, w1, e1⟩ := (C57_pipeline b k { args with incl := [43] } 1 reader).1 frames _ h1 rfl
  obtain ⟨s2, w2, e2⟩ := (C57_pipeline b k { args with excl := [43] } 1 reader).1 frames _ h1 rfl
  have g1 := Runs.plain (k := k) (workers := 1) (a := { args with incl := [43] }) rfl h1 e1
  have g2 := Runs.plain (k := k) (workers := 1) (a := { args with excl := [43] }) rfl h1 e2
  obtain ⟨a1, _, _, a4⟩ := C131_split b k args rfl rfl [43] (by simp) reader none none 16 16 1 1 1 s s1 s2 w w1 w2 h g1 g2
  have hw : ∀ (a : Args), a.output = true → a.length = 8 → ∀ s w, Finishes a frames s w → w = ((frames.filter fun f => decide (Wanted a f)).map (·.data)) := by
    intro a ho hl s w hf
    rw [((C57_summary a frames).1 s w hf).2, if_pos ho]
    have e2 : (wanted a frames).filter (fun f => decide (Acceptable f)) = wanted a frames :=
      List.filter_eq_self.2 fun f hf => by simp [Acceptable, (h3 f (List.mem_filter.1 hf).1).2]
    rw [e2, hl]
    apply List.map_congr_left
    intro f hf
    have : f.data ∈ [one, two, three] := by rw [← h2]; exact List.mem_map_of_mem (List.mem_filter.1 hf).1
    revert this
    generalize f.data = d
    intro hd
    simp only [List.mem_cons, List.not_mem_nil, or_false] at hd
    rcases hd with rfl | rfl | rfl <;> rfl
  have hsel : ∀ (a : Args) (ds : List (List U8)), (∀ d ∈ [one, two, three], ∀ hd, VCDUHeader.decode d = some hd → ∀ m i, (Wanted a ⟨hd, m, i, d⟩ ↔ d ∈ ds)) →
      ((frames.filter fun f => decide (Wanted a f)).map (·.data)) = [one, two, three].filter fun d => decide (d ∈ ds) := by
    intro a ds hk
    rw [← h2, List.filter_map]
    congr 1
    apply List.filter_congr
    intro f hf
    have : f.data ∈ [one, two, three] := by rw [← h2]; exact List.mem_map_of_mem hf
    have := hk f.data this f.header (h3 f hf).1 f.missing f.integrity
    simp only [Function.comp, decide_eq_decide]
    exact this
  have hv : ∀ d ∈ [one, two, three], ∀ hd, VCDUHeader.decode d = some hd → hd.vcid = if d = two then 5#16 else 43#16 := by
    intro d hd x hx
    have : ∀ d ∈ [one, two, three], (VCDUHeader.decode d).map (·.vcid) = some (if d = two then 5#16 else 43#16) := by decide +kernel
    have := this d hd
    rw [hx] at this
    simpa using this
  refine ⟨s, w, s1, w1, s2, w2, h, g1, g2, ?_, ?_, ?_, a1, a4, (C131_records b k args rfl rfl rfl [43] (by simp) reader none none 16 16 1 1 1 s s1 s2 w w1 w2 h g1 g2).1⟩
  · rw [hw args rfl rfl s w e, hsel args [one, two, three]]
    · decide
    · intro d hd x hx m i
      simp only [Wanted, hv d hd x hx, hd, iff_true]
      clear hx; revert d; decide +kernel
  · rw [hw { args with incl := [43] } rfl rfl s1 w1 e1, hsel _ [one, three]]
    · decide
    · intro d hd x hx m i
      simp only [Wanted, hv d hd x hx]
      clear hx; revert d; decide +kernel
  · rw [hw { args with excl := [43] } rfl rfl s2 w2 e2, hsel _ [two]]
    · decide
    · intro d hd x hx m i
      simp only [Wanted, hv d hd x hx]
      clear hx; revert d; decide +kernel

/-- `--include 43,7 --exclude 43` asks for channel 7, `--include 43 --exclude 43` for nothing. -/
example (b : Build) (k : Codec) (s s' s'' : Framing.Summary) (w w' w'' : List (List U8)) (h : Runs b k { args with incl := [43, 7], excl := [43] } 1 reader s w)
    (h' : Runs b k { args with incl := [7] } 4 reader s' w') (h'' : Runs b k { args with incl := [43], excl := [43] } 1 reader s'' w'') :
    s' = s ∧ w' = w ∧ s''.vcids = [] ∧ w'' = [] := by
  obtain ⟨e1, e2⟩ := (C131_both b k args rfl [43, 7] [43] (by simp) reader 1 4 s s' w w' h).1 (by decide) h'
  obtain ⟨e3, e4⟩ := (C131_both b k args rfl [43] [43] (by simp) reader 1 4 s'' s' w'' w' h'').2 (by decide)
  exact ⟨e1, e2, by rw [e3], e4⟩

end ChannelsEx

end Ccsds
