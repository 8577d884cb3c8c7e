import Verif.Model.Info
import Verif.Props.Filter
import Verif.Props.Summary
/-!
# C56: `ccsds info`
-/
namespace Ccsds
open Spec Info

/-! ## Specification -/

/-- The times of the packets with a secondary header long enough for a CDS time; none at all if times are not wanted. -/
def packetTimes (cds : Bool) (ps : List Packet) : List Epoch :=
  if cds then ps.filterMap (fun p => if p.header.hasSecondaryHeader then cdsTime p else none) else []

/-- `first`, `last` and `duration` describe the times: the earliest, the latest, and the time between. -/
def IsSpan (τ : Epoch → Int) (ts : List Epoch) (first last : Option Epoch) (duration : Int) : Prop :=
  (ts = [] ∧ first = none ∧ last = none ∧ duration = 0) ∨
  ∃ x ∈ ts, ∃ y ∈ ts, first = some x ∧ last = some y ∧ (∀ t ∈ ts, τ x ≤ τ t ∧ τ t ≤ τ y) ∧ duration = (y.nanos : Int) - x.nanos

/-! ## Proofs -/

theorem isSpan_touch (τ : Epoch → Int) (ts : List Epoch) (s : ISummary) (e : Epoch) (h : IsSpan τ ts s.first s.last s.duration) :
    IsSpan τ (ts ++ [e]) (s.touch τ e).first (s.touch τ e).last (s.touch τ e).duration := by
  right
  rcases h with ⟨rfl, h1, h2, _⟩ | ⟨x, hx, y, hy, h1, h2, h3, _⟩
  · refine ⟨e, by simp, e, by simp, ?_⟩
    simp [ISummary.touch, h1, h2]
  · refine ⟨minE τ e x, ?_, maxE τ e y, ?_, ?_⟩
    · unfold minE; split <;> simp [hx]
    · unfold maxE; split <;> simp [hy]
    · simp only [ISummary.touch, h1, h2]
      refine ⟨trivial, trivial, ?_, trivial⟩
      intro t ht
      have a1 : τ (minE τ e x) ≤ τ e ∧ τ (minE τ e x) ≤ τ x := by unfold minE; split <;> omega
      have a2 : τ e ≤ τ (maxE τ e y) ∧ τ y ≤ τ (maxE τ e y) := by unfold maxE; split <;> omega
      rcases List.mem_append.1 ht with ht | ht
      · have := h3 t ht; omega
      · rw [List.mem_singleton.1 ht]; omega

/-- `s` describes the packets `ps`, apart from the missing count. -/
structure Describes (τ : Epoch → Int) (cds : Bool) (ps : List Packet) (s : ISummary) : Prop where
  total : s.total = ps.length
  span : IsSpan τ (packetTimes cds ps) s.first s.last s.duration

structure InfoInv (τ : Epoch → Int) (cds : Bool) (ps : List Packet) (st : State) : Prop where
  summary : Describes τ cds ps st.summary
  nodup : (HMap.keys st.apids).Nodup
  absent : ∀ a, ofApid ps a = [] → st.apids.get? a = none
  entry : ∀ a, ofApid ps a ≠ [] → ∃ s, st.apids.get? a = some s ∧ Describes τ cds (ofApid ps a) s ∧ s.missing = gapSum 16384 (seqIds (ofApid ps a))
  seen : ∀ a, st.lastSeqid.get? a = (ofApid ps a).getLast?.map (fun p => p.header.sequenceId)
  sumMissing : (st.apids.map (fun e => e.2.missing)).sum = st.summary.missing

theorem packetTimes_snoc (cds : Bool) (ps : List Packet) (p : Packet) :
    packetTimes cds (ps ++ [p]) = packetTimes cds ps ++ packetTimes cds [p] := by
  unfold packetTimes
  split
  · rw [List.filterMap_append]
  · rfl

/-- The common shape of a step: totals and missing go up, and the time, if there is one, is taken into account. -/
theorem info_step_eq (b : Build) (τ : Epoch → Int) (cds : Bool) (st : State) (p : Packet) (hp : Regular p) (m : Nat)
    (hm : missingSince b (st.lastSeqid.get? p.header.apid) p.header.sequenceId = .ret m) :
    let upd : ISummary → ISummary := fun s =>
      let s := { s with total := s.total + 1, missing := s.missing + m }
      match packetTimes cds [p] with
      | [] => s
      | e :: _ => s.touch τ e
    step b τ (if cds then some cdsDecoder else none) st p =
      .ret ⟨st.lastSeqid.insert p.header.apid p.header.sequenceId,
        st.apids.insert p.header.apid (upd ((st.apids.get? p.header.apid).getD .default)), upd st.summary⟩ := by
  intro upd
  have hdec := decoder_decode b p hp.1
  have : (Info.cdsDecoder : TimecodeDecoder) = Filter.decoder := rfl
  unfold step
  rw [hm]
  simp only [upd]
  by_cases hs : p.header.hasSecondaryHeader = true
  · cases cds with
    | false => simp [packetTimes, hs]
    | true =>
      cases hc : cdsTime p with
      | none =>
        obtain ⟨e, he⟩ := hdec.2 hc
        rw [← this] at he
        simp [packetTimes, hs, hc, he]
      | some t =>
        have he := hdec.1 t hc
        rw [← this] at he
        simp [packetTimes, hs, hc, he]
  · simp only [Bool.not_eq_true] at hs
    cases cds <;> simp [packetTimes, hs] <;> rfl

theorem info_step (b : Build) (τ : Epoch → Int) (cds : Bool) (ps : List Packet) (st : State) (p : Packet) (hw : ∀ q ∈ ps ++ [p], q.WellFormed)
    (hv : ValidIds (ps ++ [p])) (h : InfoInv τ cds ps st) :
    ∃ st', step b τ (if cds then some cdsDecoder else none) st p = .ret st' ∧ InfoInv τ cds (ps ++ [p]) st' := by
  have hseen := h.seen p.header.apid
  have hm : ∃ m, missingSince b (st.lastSeqid.get? p.header.apid) p.header.sequenceId = .ret m ∧
      gapSum 16384 (seqIds (ofApid ps p.header.apid ++ [p])) = gapSum 16384 (seqIds (ofApid ps p.header.apid)) + m := by
    have hs : seqIds (ofApid ps p.header.apid ++ [p]) = seqIds (ofApid ps p.header.apid) ++ [p.header.sequenceId.toNat] := by simp [seqIds]
    rw [hs, gapSum_snoc, hseen]
    cases hl : (ofApid ps p.header.apid).getLast? with
    | none =>
      refine ⟨0, rfl, ?_⟩
      have : ofApid ps p.header.apid = [] := by simpa using hl
      simp [this, seqIds]
    | some q =>
      have hqm : q ∈ ps := (List.mem_filter.1 (List.mem_of_getLast? hl)).1
      have hg := C08_gap b p.header.sequenceId q.header.sequenceId (hv p (by simp)) (hv q (by simp [hqm]))
      obtain ⟨m, hm1, hm2⟩ := hg
      refine ⟨m.toNat, ?_, ?_⟩
      · simp [missingSince, hm1]
      · have hlast : (seqIds (ofApid ps p.header.apid)).getLast? = some q.header.sequenceId.toNat := by simp [seqIds, List.getLast?_map, hl]
        rw [hlast, hm2]
  obtain ⟨m, hm1, hm2⟩ := hm
  have hstep := info_step_eq b τ cds st p (wellFormed_regular (hw p (by simp))) m hm1
  simp only at hstep
  rw [hstep]
  refine ⟨_, rfl, ?_⟩
  -- one summary
  have hone : ∀ (qs : List Packet) (s : ISummary), Describes τ cds qs s →
      Describes τ cds (qs ++ [p]) (match packetTimes cds [p] with
        | [] => { s with total := s.total + 1, missing := s.missing + m }
        | e :: _ => ({ s with total := s.total + 1, missing := s.missing + m } : ISummary).touch τ e) := by
    intro qs s hd
    have hlen : (packetTimes cds [p]).length ≤ 1 := by
      unfold packetTimes
      split
      · exact List.length_filterMap_le _ _
      · simp
    have hsn := packetTimes_snoc cds qs p
    match hpt : packetTimes cds [p], hlen with
    | [], _ =>
      rw [hpt, List.append_nil] at hsn
      exact ⟨by simp [hd.total], by rw [hsn]; exact hd.span⟩
    | [e], _ =>
      rw [hpt] at hsn
      refine ⟨by simp [hd.total, ISummary.touch], ?_⟩
      rw [hsn]
      exact isSpan_touch τ _ _ e hd.span
    | _ :: _ :: _, hl => simp at hl
  have hmiss : ∀ s : ISummary, (match packetTimes cds [p] with
        | [] => { s with total := s.total + 1, missing := s.missing + m }
        | e :: _ => ({ s with total := s.total + 1, missing := s.missing + m } : ISummary).touch τ e).missing = s.missing + m := by
    intro s
    split <;> rfl
  have hdef : Describes τ cds (ofApid ps p.header.apid) ((st.apids.get? p.header.apid).getD .default) ∧
      ((st.apids.get? p.header.apid).getD .default).missing = gapSum 16384 (seqIds (ofApid ps p.header.apid)) := by
    by_cases he : ofApid ps p.header.apid = []
    · rw [h.absent _ he, he]
      exact ⟨⟨rfl, .inl ⟨by simp [packetTimes], rfl, rfl, rfl⟩⟩, rfl⟩
    · obtain ⟨s, h1, h2, h3⟩ := h.entry _ he
      rw [h1]
      exact ⟨h2, h3⟩
  refine ⟨hone ps _ h.summary, HMap.nodup_insert _ _ _ h.nodup, ?_, ?_, ?_, ?_⟩
  · intro a ha
    rw [ofApid_snoc] at ha
    split at ha
    · simp at ha
    · rename_i hne
      simp only [HMap.get?_insert, hne, ↓reduceIte]
      exact h.absent a ha
  · intro a ha
    simp only [HMap.get?_insert]
    rw [ofApid_snoc] at ha ⊢
    split
    · rename_i he
      subst he
      refine ⟨_, rfl, ?_, ?_⟩
      · exact hone _ _ hdef.1
      · rw [hmiss, hdef.2, hm2]
    · rename_i hne
      rw [if_neg hne] at ha
      exact h.entry a ha
  · intro a
    simp only [HMap.get?_insert]
    rw [ofApid_snoc]
    split
    · simp
    · exact h.seen a
  · have := HMap.sum_insert st.apids (fun e => e.missing) p.header.apid (match packetTimes cds [p] with
        | [] => { (st.apids.get? p.header.apid).getD .default with total := ((st.apids.get? p.header.apid).getD .default).total + 1, missing := ((st.apids.get? p.header.apid).getD .default).missing + m }
        | e :: _ => ({ (st.apids.get? p.header.apid).getD .default with total := ((st.apids.get? p.header.apid).getD .default).total + 1, missing := ((st.apids.get? p.header.apid).getD .default).missing + m } : ISummary).touch τ e)
    rw [hmiss] at this
    rw [hmiss]
    have h0 := h.sumMissing
    cases hg : st.apids.get? p.header.apid with
    | none => rw [hg] at this; simp [ISummary.default] at this h0 ⊢; omega
    | some s => rw [hg] at this; simp at this h0 ⊢; omega

theorem info_loop (b : Build) (τ : Epoch → Int) (cds : Bool) (rest : List Packet) : ∀ (done : List Packet) (st : State),
    (∀ q ∈ done ++ rest, q.WellFormed) → ValidIds (done ++ rest) → InfoInv τ cds done st →
    ∃ st', loop b τ (if cds then some cdsDecoder else none) st rest = .ret st' ∧ InfoInv τ cds (done ++ rest) st' := by
  induction rest with
  | nil => intro done st _ _ h; exact ⟨st, rfl, by simpa using h⟩
  | cons p rest ih =>
    intro done st hw hv h
    have hsub : ∀ q ∈ done ++ [p], q ∈ done ++ p :: rest := by
      intro q hq
      rcases List.mem_append.1 hq with hq | hq
      · simp [hq]
      · simp [List.mem_singleton.1 hq]
    obtain ⟨s1, h1, i1⟩ := info_step b τ cds done st p (fun q hq => hw q (hsub q hq)) (fun q hq => hv q (hsub q hq)) h
    obtain ⟨s2, h2, i2⟩ := ih (done ++ [p]) s1 (by simpa using hw) (by simpa using hv) i1
    refine ⟨s2, ?_, by simpa using i2⟩
    rw [loop, h1]
    exact h2

theorem info_init (τ : Epoch → Int) (cds : Bool) : InfoInv τ cds [] ⟨[], [], .default⟩ := by
  refine ⟨⟨rfl, .inl ⟨by simp [packetTimes], rfl, rfl, rfl⟩⟩, ?_, ?_, ?_, ?_, rfl⟩ <;> simp [ofApid, HMap.keys]

theorem wellFormed_validIds {ps : List Packet} (h : ∀ p ∈ ps, p.WellFormed) : ValidIds ps := by
  intro p hp
  obtain ⟨h1, h2⟩ := h p hp
  have h7 := packetLen_ge p.data
  obtain ⟨x, e, _, _, _, _, _, hs, _⟩ := C01_fields p.data (by omega)
  rw [h2] at e
  cases e
  have := field_lt p.data 18 14
  omega

/-- The list of APIDs of a result does not depend on the iteration order of the map. -/
theorem sort_entries (m : HMap U16 ISummary) (hn : (HMap.keys m).Nodup) (entries : List (U16 × ISummary)) (hp : entries.Perm m) :
    entries.mergeSort (fun x y => x.1 ≤ y.1) = m.mergeSort (fun x y => x.1 ≤ y.1) ∧
      (m.mergeSort (fun x y => x.1 ≤ y.1)).Pairwise (fun x y => x.1 < y.1) := by
  have hsorted : ∀ l : List (U16 × ISummary), (l.map (·.1)).Nodup → (l.mergeSort (fun x y => x.1 ≤ y.1)).Pairwise (fun x y => x.1 < y.1) := by
    intro l hl
    have a1 := List.pairwise_mergeSort (le := fun x y : U16 × ISummary => decide (x.1 ≤ y.1))
      (fun a b c h k => by simp only [decide_eq_true_eq, BitVec.le_def] at *; omega)
      (fun a b => by simp only [Bool.or_eq_true, decide_eq_true_eq, BitVec.le_def]; omega) l
    have a2 : ((l.mergeSort (fun x y => decide (x.1 ≤ y.1))).map (·.1)).Nodup := ((List.mergeSort_perm l _).map _).nodup_iff.2 hl
    have a2 := List.pairwise_map.1 a2
    refine a1.imp₂ ?_ a2
    intro a b h hne
    have h : a.1 ≤ b.1 := by simpa using h
    rw [BitVec.le_def] at h
    rw [BitVec.lt_def]
    have : a.1.toNat ≠ b.1.toNat := fun e => hne (BitVec.eq_of_toNat_eq e)
    omega
  have hn' : (entries.map (·.1)).Nodup := (hp.map _).nodup_iff.2 hn
  refine ⟨?_, hsorted m hn⟩
  refine (((List.mergeSort_perm entries _).trans hp).trans (List.mergeSort_perm m _).symm).eq_of_pairwise ?_ (hsorted _ hn') (hsorted _ hn)
  intro a b _ _ h1 h2
  simp only [BitVec.lt_def] at h1 h2
  omega

/-! ## C56 -/

/-- The result of `info` describes the packets `ps`. -/
structure Reports (τ : Epoch → Int) (cds : Bool) (ps : List Packet) (i : Info) : Prop where
  /-- total number of packets -/
  total : i.summary.total = ps.length
  /-- first and last time, and the duration -/
  span : IsSpan τ (packetTimes cds ps) i.summary.first i.summary.last i.summary.duration
  /-- missing packets: the sum over the APIDs -/
  missing : i.summary.missing = (i.apids.map (fun e => e.2.missing)).sum
  /-- APIDs ascending, none twice -/
  ascending : i.apids.Pairwise (fun x y => x.1 < y.1)
  /-- the APIDs are those of the packets -/
  present : ∀ a, (∃ s, (a, s) ∈ i.apids) ↔ ∃ p ∈ ps, p.header.apid = a
  /-- the same numbers for the packets of each APID; missing packets are the gaps of the sequence ids -/
  each : ∀ a s, (a, s) ∈ i.apids → s.total = (ofApid ps a).length ∧ s.missing = gapSum 16384 (seqIds (ofApid ps a)) ∧
    IsSpan τ (packetTimes cds (ofApid ps a)) s.first s.last s.duration

/-- `info` on a file with packets `ps` has exactly one result (whatever the iteration order of the map), no panic, and it describes the packets. -/
theorem C56_info (b : Build) (τ : Epoch → Int) (cds : Bool) (bs : List U8) (r : Reader) (ps : List Packet) (hd : r.Delivers bs) (hps : Decodes r ps) :
    ∃ i, Reports τ cds ps i ∧ ∀ res, Runs b τ cds r res ↔ res = some i := by
  have hw := decodes_wellFormed hd hps
  obtain ⟨s, hc⟩ := hps
  obtain ⟨st, hl, inv⟩ := info_loop b τ cds ps [] ⟨[], [], .default⟩ (by simpa using hw) (wellFormed_validIds (by simpa using hw)) (info_init τ cds)
  simp only [List.nil_append] at inv
  have hsort := sort_entries st.apids inv.nodup
  have hperm := List.mergeSort_perm st.apids (fun x y => decide (x.1 ≤ y.1))
  refine ⟨⟨st.summary, st.apids.mergeSort (fun x y => x.1 ≤ y.1)⟩, ⟨inv.summary.total, inv.summary.span, ?_, (hsort _ (.refl _)).2, ?_, ?_⟩, ?_⟩
  · rw [← inv.sumMissing]
    exact ((hperm.map _).sum_nat).symm
  · intro a
    have hof : ofApid ps a ≠ [] ↔ ∃ p ∈ ps, p.header.apid = a := by
      unfold ofApid
      rw [ne_eq, List.filter_eq_nil_iff]
      simp
    rw [← hof]
    constructor
    · rintro ⟨x, hx⟩ hnil
      have := (HMap.mem_iff_get? st.apids inv.nodup a x).1 (hperm.mem_iff.1 hx)
      rw [inv.absent a hnil] at this
      cases this
    · intro hne
      obtain ⟨x, hx, _⟩ := inv.entry a hne
      exact ⟨x, hperm.mem_iff.2 ((HMap.mem_iff_get? st.apids inv.nodup a x).2 hx)⟩
  · intro a x hx
    have hg := (HMap.mem_iff_get? st.apids inv.nodup a x).1 (hperm.mem_iff.1 hx)
    by_cases hne : ofApid ps a = []
    · rw [inv.absent a hne] at hg; cases hg
    · obtain ⟨y, hy, h1, h2⟩ := inv.entry a hne
      rw [hg] at hy
      cases hy
      exact ⟨h1.total, h2, h1.span⟩
  · intro res
    constructor
    · intro h
      cases h with
      | panicked k => exact absurd (k.unique hc).2 (by simp)
      | loopPanicked k1 k2 =>
        obtain ⟨rfl, _⟩ := k1.unique hc
        rw [Merger.oks_map_ok, hl] at k2
        cases k2
      | done k1 k2 k3 =>
        obtain ⟨rfl, _⟩ := k1.unique hc
        rw [Merger.oks_map_ok, hl] at k2
        cases k2
        rw [(hsort _ k3).1]
    · rintro rfl
      exact .done hc (by rw [Merger.oks_map_ok]; exact hl) (.refl _)

/-- Total and missing packets, over all and for each APID, are those of the library's `Summary`. -/
theorem C56_same_counts_as_library (b : Build) (τ : Epoch → Int) (cds : Bool) (bs : List U8) (r : Reader) (ps : List Packet) (hd : r.Delivers bs)
    (hps : Decodes r ps) (i : Info) (h : Runs b τ cds r (some i)) :
    ∃ s, Summary.addAll b Summary.default ps = .ret s ∧ i.summary.total = s.count ∧ i.summary.missing = s.missing ∧
      ∀ a, (s.apids.get? a).map (fun e => (e.count, e.missing)) = (i.apids.find? (fun e => e.1 == a)).map (fun e => (e.2.total, e.2.missing)) := by
  have hw := decodes_wellFormed hd hps
  obtain ⟨j, hr, hu⟩ := C56_info b τ cds bs r ps hd hps
  have := (hu (some i)).1 h
  cases this
  obtain ⟨s, h1, inv⟩ := summary_inv b ps [] Summary.default (by simpa using wellFormed_validIds hw) summary_init
  simp only [List.nil_append] at inv
  have heach : ∀ a, (s.apids.get? a).map (fun e => (e.count, e.missing)) = (i.apids.find? (fun e => e.1 == a)).map (fun e => (e.2.total, e.2.missing)) := by
    intro a
    rw [inv.entry a]
    cases hf : i.apids.find? (fun e => e.1 == a) with
    | none =>
      rw [if_pos]
      · rfl
      · have hno : ¬ ∃ p ∈ ps, p.header.apid = a := by
          rw [← hr.present a]
          rintro ⟨x, hx⟩
          have := List.find?_eq_none.1 hf (a, x) hx
          simp at this
        unfold ofApid
        rw [List.filter_eq_nil_iff]
        intro p hp hpa
        exact hno ⟨p, hp, by simpa using hpa⟩
    | some e =>
      obtain ⟨x, y⟩ := e
      have hx : x = a := by simpa using List.find?_some hf
      subst hx
      have hm := List.mem_of_find?_eq_some hf
      obtain ⟨e1, e2, _⟩ := hr.each x y hm
      rw [if_neg]
      · simp [e1, e2]
      · obtain ⟨p, hp, hpa⟩ := (hr.present x).1 ⟨y, hm⟩
        intro hnil
        have : p ∈ ofApid ps x := List.mem_filter.2 ⟨hp, by simp [hpa]⟩
        rw [hnil] at this
        cases this
  refine ⟨s, h1, by rw [hr.total, inv.count], ?_, heach⟩
  rw [hr.missing, ← inv.sumMissing]
  -- both are sums over the same APIDs
  have hkeys : (s.apids.map (fun e => (e.1, e.2.missing))).Perm (i.apids.map (fun e => (e.1, e.2.missing))) := by
    have n1 : (s.apids.map (fun e => (e.1, e.2.missing))).Nodup := by
      have : ((s.apids.map (fun e => (e.1, e.2.missing))).map Prod.fst).Nodup := by rw [List.map_map]; exact inv.nodup
      exact (List.pairwise_map.1 this).imp fun h e => h (by rw [e])
    have n2 : (i.apids.map (fun e => (e.1, e.2.missing))).Nodup := by
      have : ((i.apids.map (fun e => (e.1, e.2.missing))).map Prod.fst).Nodup := by
        rw [List.map_map]
        refine List.pairwise_map.2 (hr.ascending.imp ?_)
        intro a b h e
        simp only [Function.comp] at e
        rw [BitVec.lt_def, e] at h
        omega
      exact (List.pairwise_map.1 this).imp fun h e => h (by rw [e])
    rw [List.perm_ext_iff_of_nodup n1 n2]
    rintro ⟨a, m⟩
    simp only [List.mem_map, Prod.mk.injEq, Prod.exists]
    have hg : ∀ e, (a, e) ∈ s.apids ↔ s.apids.get? a = some e := HMap.mem_iff_get? s.apids inv.nodup a
    constructor
    · rintro ⟨a', e, hm, rfl, rfl⟩
      have hge := (HMap.mem_iff_get? s.apids inv.nodup a' e).1 hm
      have := heach a'
      rw [hge] at this
      cases hf : i.apids.find? (fun e => e.1 == a') with
      | none => rw [hf] at this; simp at this
      | some y =>
        rw [hf] at this
        simp at this
        have hx : y.1 = a' := by simpa using List.find?_some hf
        exact ⟨y.1, y.2, List.mem_of_find?_eq_some hf, hx, this.2.symm⟩
    · rintro ⟨a', x, hm, rfl, rfl⟩
      obtain ⟨_, e2, _⟩ := hr.each a' x hm
      obtain ⟨p, hp, hpa⟩ := (hr.present a').1 ⟨x, hm⟩
      have he := inv.entry a'
      rw [if_neg] at he
      · exact ⟨a', _, (HMap.mem_iff_get? s.apids inv.nodup a' _).2 he, rfl, e2.symm⟩
      · intro hnil
        have : p ∈ ofApid ps a' := List.mem_filter.2 ⟨hp, by simp [hpa]⟩
        rw [hnil] at this
        cases this
  have := ((hkeys.map Prod.snd).sum_nat).symm
  rw [List.map_map, List.map_map] at this
  exact this

/-- If the decoder panics (C03), so does `info`, without output. -/
theorem C56_panic (b : Build) (τ : Epoch → Int) (cds : Bool) (r : Reader) (items : List (Except Error Packet))
    (h : Collects PacketDecoder.next (PacketDecoder.new r) items none) (res : Option Info) : Runs b τ cds r res ↔ res = none := by
  constructor
  · intro k
    cases k with
    | panicked _ => rfl
    | loopPanicked _ _ => rfl
    | done k1 _ _ => exact absurd (k1.unique h).2 (by simp)
  · rintro rfl; exact .panicked h

/-- Concrete: the two packets of `FilterEx`, 1963 and 2137. -/
example (b : Build) : ∃ i, Reports FilterEx.tau true [FilterEx.earlyPkt 0, FilterEx.latePkt 14] i ∧
    ∀ res, Runs b FilterEx.tau true (Reader.ofBytes FilterEx.stream) res ↔ res = some i :=
  C56_info b _ true _ _ _ FilterEx.delivers FilterEx.decodes

end Ccsds
