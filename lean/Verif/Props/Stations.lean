import Verif.Props.Cut
import Verif.Props.Merge
import Verif.Props.MergeSteps
/-!
# C120  Several stations record the same transmission; their packet files are merged
-/
namespace Ccsds
open Spec Merger

section
variable {Path : Type} [DecidableEq Path]

/-- The packet `q` (its bytes) can be merged by `m`, with time `t`: it is complete, of at most 65536 bytes (C03), unsegmented, and `m` decodes its time as `t`, wants that time and its
APID. -/
structure Mergeable (b : Build) (τ : Epoch → Int) (m : Merger Path) (q : List U8) (t : Epoch) : Prop where
  complete : 6 ≤ q.length ∧ q.length = packetLen q
  size : q.length ≤ 65536
  alone : field q 16 2 = 3
  time : ∀ p, Packet.decode q = .ok p → m.timeDecoder.decode b p = .ret (.ok t)
  wanted : τ m.fromEpoch ≤ τ t ∧ τ t < τ m.toEpoch
  apid : m.apids = [] ∨ ∃ a ∈ m.apids, a.toNat = field q 5 11

/-- The value by which packets of equal time are ordered: the one given to the APID, else the APID. -/
def rankOf (m : Merger Path) (q : List U8) : Int := rank m (BitVec.ofNat 16 (field q 5 11))

omit [DecidableEq Path] in
/-- The packet of the bytes `q`. -/
theorem Mergeable.decode {b : Build} {τ : Epoch → Int} {m : Merger Path} {q : List U8} {t : Epoch} (h : Mergeable b τ m q t) :
    ∃ hd, PrimaryHeader.decode q = .ok hd ∧ Packet.decode q = .ok ⟨hd, q, 0⟩ ∧ hd.apid.toNat = field q 5 11 ∧ hd.sequenceFlags.toNat = 3 ∧ hd.sequenceId.toNat = field q 18 14 ∧
      (⟨hd, q, 0⟩ : Packet).WellFormed := by
  obtain ⟨h1, h2⟩ := h.complete
  obtain ⟨hd, e1, e2⟩ := (C02_decode q).2.2 h1 (by omega)
  obtain ⟨hd', e1', f1, f2, f3, f4, f5, f6, f7⟩ := C01_fields q h1
  rw [e1] at e1'
  cases e1'
  rw [List.take_of_length_le (by omega)] at e2
  refine ⟨hd, e1, e2, f4, by rw [f5, h.alone], f6, ?_⟩
  exact ⟨h2, e1⟩

/-- A packet read from a file where the bytes `q` are. -/
def ReadAs (p : Packet) (q : List U8) : Prop := p.data = q ∧ PrimaryHeader.decode q = .ok p.header

theorem singles_flatten (ps : List Packet) : (ps.map fun p => [p]).flatten = ps := by
  induction ps with
  | nil => rfl
  | cons p ps ih => rw [List.map_cons, List.flatten_cons, ih]; rfl

theorem cut_singles (ps : List Packet) (h : ∀ p ∈ ps, p.isStandalone = true) : CutWhereApidChanges (ps.map fun p => [p]) := by
  induction ps with
  | nil => trivial
  | cons p ps ih =>
    refine ⟨⟨p, [], rfl, fun _ => rfl, by simp, fun hs => ?_⟩, ih fun q hq => h q (by simp [hq])⟩
    rw [h p (by simp)] at hs
    cases hs

omit [DecidableEq Path] in
/-- The groups of a file of unsegmented packets are these packets. -/
theorem file_groups {b : Build} {τ : Epoch → Int} {m : Merger Path} {time : List U8 → Epoch} (qs : List (List U8)) (hm : ∀ q ∈ qs, Mergeable b τ m q (time q)) (f : MFile)
    (hd : f.reader.Delivers f.content) (hc : f.content = qs.flatten) :
    ∃ gs ps s, Collects PacketDecoder.next (PacketDecoder.new f.reader) (ps.map .ok) (some s) ∧ FileGroups f gs ∧ gs.map PacketGroup.packets = ps.map (fun p => [p]) ∧
      List.Forall₂ ReadAs ps qs := by
  have h0 : ∃ ps0 : List Packet, List.Forall₂ ReadAs ps0 qs := by
    clear hc
    induction qs with
    | nil => exact ⟨[], .nil⟩
    | cons q qs ih =>
      obtain ⟨ps, h⟩ := ih fun q hq => hm q (by simp [hq])
      obtain ⟨hd, e, _⟩ := (hm q (by simp)).decode
      exact ⟨⟨hd, q, 0⟩ :: ps, .cons ⟨rfl, e⟩ h⟩
  obtain ⟨ps0, h0⟩ := h0
  have hw : wire ps0 = qs.flatten := by
    clear hm hc
    induction h0 with
    | nil => rfl
    | cons h _ ih => unfold wire at ih ⊢; rw [List.flatMap_cons, ih, h.1, List.flatten_cons]
  have hmem : ∀ ps : List Packet, List.Forall₂ ReadAs ps qs → ∀ p ∈ ps, ∃ q ∈ qs, ReadAs p q := by
    intro ps h p hp
    obtain ⟨i, hi, rfl⟩ := List.getElem_of_mem hp
    have hl := h.length_eq
    exact ⟨qs[i], List.getElem_mem (by omega), (List.forall₂_iff_get.1 h).2 i hi (by omega)⟩
  obtain ⟨ps, s, c1, c2, c3⟩ := C05_roundtrip ps0 [] f.reader (by
    intro p hp
    obtain ⟨q, hq, e1, e2⟩ := hmem ps0 h0 p hp
    have := hm q hq
    exact ⟨⟨by rw [e1]; exact this.complete.2, by rw [e1]; exact e2⟩, by rw [e1]; exact this.size⟩) (by unfold packetLen; simp) (by simp)
    (by rw [List.append_nil, hw, ← hc]; exact hd)
  have h1 : List.Forall₂ ReadAs ps qs := by
    clear c1 hd hc hmem hw hm c3
    induction h0 generalizing ps with
    | nil => rw [List.map_nil, List.map_eq_nil_iff] at c2; subst c2; exact .nil
    | cons h _ ih =>
      cases ps with
      | nil => simp at c2
      | cons p ps =>
        rw [List.map_cons, List.map_cons, List.cons.injEq, Prod.mk.injEq] at c2
        obtain ⟨⟨a1, a2⟩, a3⟩ := c2
        refine .cons ⟨a2.trans h.1, by rw [a1]; exact h.2⟩ (ih _ a3)
  have hst : ∀ p ∈ ps, p.isStandalone = true := by
    intro p hp
    obtain ⟨q, hq, e1, e2⟩ := hmem ps h1 p hp
    obtain ⟨hd, e, _, _, hf, _⟩ := (hm q hq).decode
    rw [e2] at e
    cases e
    simp only [Packet.isStandalone, beq_iff_eq]
    exact BitVec.eq_of_toNat_eq (by rw [hf]; rfl)
  obtain ⟨gs, s', g1, g2⟩ := (C12_exact ps (ps.map fun p => [p])).2 ⟨singles_flatten ps, cut_singles ps hst⟩
  exact ⟨gs, ps, s, c1, ⟨ps, s, s', c1, g1⟩, g2, h1⟩

omit [DecidableEq Path] in
/-- The eligible groups of such files are their packets. -/
theorem file_inputs {b : Build} {τ : Epoch → Int} {m : Merger Path} {files : Path → Option MFile} {time : List U8 → Epoch} {got : Path → List (List U8)}
    (hm : ∀ p ∈ m.paths, ∀ q ∈ got p, Mergeable b τ m q (time q))
    (hf : ∀ p ∈ m.paths, ∃ f, files p = some f ∧ f.reader.Delivers f.content ∧ f.content = (got p).flatten) (e : Entry Path) (he : Inputs b τ m files e) :
    ∃ p q, e.group.packets = [p] ∧ ReadAs p q ∧ q ∈ got e.path ∧ e.time = time q := by
  obtain ⟨h1, f, gs, h2, h3, h4, h5⟩ := he
  obtain ⟨f', hf1, hf2, hf3⟩ := hf _ h1
  rw [hf1] at h2
  cases h2
  obtain ⟨gs', ps, s, _, g2, g3, g4⟩ := file_groups (got e.path) (hm _ h1) _ hf2 hf3
  have := fileGroups_unique h3 g2
  subst this
  have hmem := List.mem_map_of_mem (f := PacketGroup.packets) h4
  rw [g3] at hmem
  obtain ⟨p, hp, ep⟩ := List.mem_map.1 hmem
  obtain ⟨i, hi, rfl⟩ := List.getElem_of_mem hp
  have hl := g4.length_eq
  have hr := (List.forall₂_iff_get.1 g4).2 i hi (by omega)
  simp only [List.get_eq_getElem] at hr
  have hq : (got e.path)[i] ∈ got e.path := List.getElem_mem _
  refine ⟨_, _, ep.symm, hr, hq, ?_⟩
  obtain ⟨first, rest, e1, _, e2, _⟩ := h5
  rw [← ep, List.cons.injEq] at e1
  obtain ⟨rfl, _⟩ := e1
  obtain ⟨hd, d1, d2, _⟩ := (hm _ h1 _ hq).decode
  rw [hr.2] at d1
  cases d1
  have ht := (hm _ h1 _ hq).time _ d2
  have : m.timeDecoder.decode b ⟨(ps[i]).header, (got e.path)[i], 0⟩ = m.timeDecoder.decode b ps[i] := by
    unfold TimecodeDecoder.decode
    rw [hr.1]
  rw [this, e2] at ht
  exact Except.ok.inj (Outcome.ret.inj ht)

omit [DecidableEq Path] in
theorem inputs_file {b : Build} {τ : Epoch → Int} {m : Merger Path} {files : Path → Option MFile} {time : List U8 → Epoch} {got : Path → List (List U8)}
    (hm : ∀ p ∈ m.paths, ∀ q ∈ got p, Mergeable b τ m q (time q))
    (hf : ∀ p ∈ m.paths, ∃ f, files p = some f ∧ f.reader.Delivers f.content ∧ f.content = (got p).flatten) (path : Path) (hpath : path ∈ m.paths) (q : List U8) (hq : q ∈ got path) :
    ∃ e p, Inputs b τ m files e ∧ e.group.packets = [p] ∧ ReadAs p q ∧ e.time = time q := by
  obtain ⟨f, hf1, hf2, hf3⟩ := hf _ hpath
  obtain ⟨gs, ps, s, _, g2, g3, g4⟩ := file_groups (got path) (hm _ hpath) _ hf2 hf3
  obtain ⟨i, hi, rfl⟩ := List.getElem_of_mem hq
  have hl := g4.length_eq
  have hi' : i < ps.length := by omega
  have hr := (List.forall₂_iff_get.1 g4).2 i hi' hi
  simp only [List.get_eq_getElem] at hr
  have : [ps[i]] ∈ gs.map PacketGroup.packets := by rw [g3]; exact List.mem_map.2 ⟨_, List.getElem_mem _, rfl⟩
  obtain ⟨g, hg, eg⟩ := List.mem_map.1 this
  have hM := hm _ hpath _ hq
  obtain ⟨hd, d1, d2, d3, d4, d5, _⟩ := hM.decode
  rw [hr.2] at d1
  cases d1
  have ht := hM.time _ d2
  have : m.timeDecoder.decode b ⟨(ps[i]).header, (got path)[i], 0⟩ = m.timeDecoder.decode b ps[i] := by
    unfold TimecodeDecoder.decode
    rw [hr.1]
  rw [this] at ht
  refine ⟨⟨path, g, time (got path)[i]⟩, ps[i], ⟨hpath, f, gs, hf1, g2, hg, ps[i], [], eg, .inr d4, ht, hM.wanted.1, hM.wanted.2, ?_⟩, eg, hr, rfl⟩
  rcases hM.apid with h | ⟨a, ha, e⟩
  · exact .inl h
  · right
    have : (ps[i]).header.apid = a := BitVec.eq_of_toNat_eq (by rw [d3, e])
    rw [this]
    exact ha

theorem pairwise_either {α : Type} {R : α → α → Prop} {l : List α} (h : l.Pairwise R) {x y : α} (hx : x ∈ l) (hy : y ∈ l) (hne : x ≠ y) : R x y ∨ R y x := by
  induction h with
  | nil => cases hx
  | cons h1 _ ih =>
    rcases List.mem_cons.1 hx with rfl | hx'
    · rcases List.mem_cons.1 hy with rfl | hy'
      · exact absurd rfl hne
      · exact .inl (h1 y hy')
    · rcases List.mem_cons.1 hy with rfl | hy'
      · exact .inr (h1 x hx')
      · exact ih hx' hy'

theorem union_filter (b : Build) (τ : Epoch → Int) (m : Merger Path) (files : Path → Option MFile) (hfiles : Readable files) (sent : List (List U8)) (time : List U8 → Epoch)
    (hsent : ∀ q ∈ sent, Mergeable b τ m q (time q))
    (horder : sent.Pairwise fun x y => τ (time x) < τ (time y) ∨ τ (time x) = τ (time y) ∧ rankOf m x < rankOf m y)
    (got : Path → List (List U8)) (hgot : ∀ p ∈ m.paths, (∃ f, files p = some f ∧ f.content = (got p).flatten) ∧ ∀ q ∈ got p, q ∈ sent) :
    (∃ out, Merges b τ m files (.ok out)) ∧
    ∀ r, Merges b τ m files r → r = .ok (sent.filter fun q => decide (∃ p ∈ m.paths, q ∈ got p)) := by
  have hm : ∀ p ∈ m.paths, ∀ q ∈ got p, Mergeable b τ m q (time q) := fun p hp q hq => hsent q ((hgot p hp).2 q hq)
  have hf : ∀ p ∈ m.paths, ∃ f, files p = some f ∧ f.reader.Delivers f.content ∧ f.content = (got p).flatten := by
    intro p hp
    obtain ⟨⟨f, h1, h2⟩, _⟩ := hgot p hp
    exact ⟨f, h1, hfiles p f h1, h2⟩
  obtain ⟨ht1, ht2⟩ := C21_total b τ m files hfiles (by
    intro p hp
    obtain ⟨f, h1, h2, h3⟩ := hf p hp
    refine ⟨f, h1, ?_⟩
    obtain ⟨gs, ps, s, c1, g2, g3, g4⟩ := file_groups (got p) (hm p hp) f h2 h3
    rintro (⟨items, hi⟩ | ⟨gs', g, first, rest, i1, i2, i3, i4, i5⟩)
    · have := (hi.unique c1).2
      cases this
    · have := fileGroups_unique i1 g2
      subst this
      have hmem := List.mem_map_of_mem (f := PacketGroup.packets) i2
      rw [g3, i3] at hmem
      obtain ⟨x, hx, ep⟩ := List.mem_map.1 hmem
      obtain ⟨rfl, _⟩ := List.cons.inj ep
      obtain ⟨i, hi, rfl⟩ := List.getElem_of_mem hx
      have hl := g4.length_eq
      have hr := (List.forall₂_iff_get.1 g4).2 i hi (by omega)
      simp only [List.get_eq_getElem] at hr
      have hq : (got p)[i] ∈ got p := List.getElem_mem _
      obtain ⟨hd, d1, d2, _⟩ := (hm _ hp _ hq).decode
      rw [hr.2] at d1
      cases d1
      have ht := (hm _ hp _ hq).time _ d2
      have : m.timeDecoder.decode b ⟨(ps[i]).header, (got p)[i], 0⟩ = m.timeDecoder.decode b ps[i] := by
        unfold TimecodeDecoder.decode
        rw [hr.1]
      rw [this, i5] at ht
      cases ht)
  refine ⟨ht1, fun r hr => ?_⟩
  obtain ⟨out, rfl⟩ := ht2 r hr
  obtain ⟨entries, hI⟩ := C21_merge b τ m files hfiles out hr
  congr 1
  -- the entries, as packets of the sequence
  have hent : ∀ e ∈ entries, ∃ q, e.bytes = q ∧ q ∈ got e.path ∧ e.path ∈ m.paths ∧ e.time = time q ∧ rank m e.apid = rankOf m q ∧
      e.key τ = (some (BitVec.ofNat 16 (field q 5 11), BitVec.ofNat 16 (field q 18 14)), τ (time q)) := by
    intro e he
    have hin := hI.inputs e he
    obtain ⟨p, q, e1, e2, e3, e4⟩ := file_inputs hm hf e hin
    obtain ⟨hd, d1, _, d3, _, d5, _⟩ := (hm _ hin.1 _ e3).decode
    rw [e2.2] at d1
    cases d1
    have a1 : p.header.apid = BitVec.ofNat 16 (field q 5 11) := by rw [← d3]; simp
    have a2 : p.header.sequenceId = BitVec.ofNat 16 (field q 18 14) := by rw [← d5]; simp
    refine ⟨q, ?_, e3, hin.1, e4, ?_, ?_⟩
    · unfold Entry.bytes; rw [e1, List.flatMap_cons, List.flatMap_nil, List.append_nil, e2.1]
    · unfold rankOf Entry.apid; rw [e1, ← a1]
    · unfold Entry.key; rw [e1, e4, ← a1, ← a2]; rfl
  have hsn : sent.Nodup := horder.imp fun h e => by subst e; omega
  have hon : out.Nodup := by
    rw [hI.bytes]
    refine nodup_transfer (Entry.key τ) Entry.bytes entries hI.distinct ?_
    intro x hx y hy e
    obtain ⟨q, x1, _, _, _, _, x6⟩ := hent x hx
    obtain ⟨q', y1, _, _, _, _, y6⟩ := hent y hy
    rw [x6, y6]
    have : q = q' := by rw [← x1, ← y1, e]
    rw [this]
  have hperm : out.Perm (sent.filter fun q => decide (∃ p ∈ m.paths, q ∈ got p)) := by
    rw [List.perm_ext_iff_of_nodup hon (hsn.filter _)]
    intro q
    rw [List.mem_filter, decide_eq_true_eq]
    constructor
    · intro hq
      rw [hI.bytes] at hq
      obtain ⟨e, he, rfl⟩ := List.mem_map.1 hq
      obtain ⟨q, x1, x2, x3, _⟩ := hent e he
      rw [x1]
      exact ⟨(hgot _ x3).2 q x2, e.path, x3, x2⟩
    · rintro ⟨hs, p, hp, hq⟩
      obtain ⟨e, pk, h1, h2, h3, h4⟩ := inputs_file hm hf p hp q hq
      obtain ⟨e', he', hk⟩ := List.mem_map.1 (hI.complete e h1)
      obtain ⟨q', x1, x2, x3, x4, x5, x6⟩ := hent e' he'
      rw [hI.bytes]
      refine List.mem_map.2 ⟨e', he', ?_⟩
      rw [x1]
      -- packets of the sequence with the same key are the same
      obtain ⟨hd, d1, _, d3, _, d5, _⟩ := (hm _ hp _ hq).decode
      rw [h3.2] at d1
      cases d1
      have hk2 : e.key τ = (some (BitVec.ofNat 16 (field q 5 11), BitVec.ofNat 16 (field q 18 14)), τ (time q)) := by
        unfold Entry.key; rw [h2, h4, ← d3, ← d5]; simp
      rw [x6, hk2, Prod.mk.injEq, Option.some.injEq, Prod.mk.injEq] at hk
      obtain ⟨⟨k1, _⟩, k3⟩ := hk
      have hr : rankOf m q' = rankOf m q := by unfold rankOf; rw [k1]
      have hs' := (hgot _ x3).2 q' x2
      by_contra hne
      rcases pairwise_either horder hs' hs hne with h | h <;> omega
  refine List.Perm.eq_of_pairwise (le := fun x y => τ (time x) < τ (time y) ∨ τ (time x) = τ (time y) ∧ rankOf m x ≤ rankOf m y) ?_ ?_ ?_ hperm
  · intro x y hx hy h1 h2
    have hx' := (List.mem_filter.1 (hperm.mem_iff.1 hx)).1
    have hy' := (List.mem_filter.1 hy).1
    by_contra hne
    rcases pairwise_either horder hx' hy' hne with h | h <;> omega
  · rw [hI.bytes, List.pairwise_map]
    refine List.Pairwise.imp_of_mem ?_ hI.sorted
    intro x y hx hy h
    obtain ⟨q, x1, _, _, x4, x5, _⟩ := hent x hx
    obtain ⟨q', y1, _, _, y4, y5, _⟩ := hent y hy
    rw [x1, y1, ← x4, ← y4, ← x5, ← y5]
    exact h
  · exact (horder.filter _).imp fun h => by omega

/-- C120, the merge: files of unsegmented packets, all of them from one sequence of packets of strictly increasing time (packets of equal time in the order of their APIDs), in any order
and with any repetitions, are merged into the packets that are in at least one of the files, each once, in the order of the sequence. -/
theorem C120_union (b : Build) (τ : Epoch → Int) (m : Merger Path) (files : Path → Option MFile) (hfiles : Readable files) (sent : List (List U8)) (time : List U8 → Epoch)
    (hsent : ∀ q ∈ sent, Mergeable b τ m q (time q))
    (horder : sent.Pairwise fun x y => τ (time x) < τ (time y) ∨ τ (time x) = τ (time y) ∧ rankOf m x < rankOf m y)
    (got : Path → List (List U8)) (hgot : ∀ p ∈ m.paths, (∃ f, files p = some f ∧ f.content = (got p).flatten) ∧ ∀ q ∈ got p, q ∈ sent) :
    (∃ out, Merges b τ m files (.ok out)) ∧
    ∀ r, Merges b τ m files r → ∃ out, r = .ok out ∧ out.Sublist sent ∧ ∀ q, q ∈ out ↔ ∃ p ∈ m.paths, q ∈ got p := by
  obtain ⟨h1, h2⟩ := union_filter b τ m files hfiles sent time hsent horder got hgot
  refine ⟨h1, fun r hr => ⟨_, h2 r hr, List.filter_sublist, fun q => ?_⟩⟩
  rw [List.mem_filter, decide_eq_true_eq]
  exact ⟨fun h => h.2, fun ⟨p, hp, hq⟩ => ⟨(hgot p hp).2 q hq, p, hp, hq⟩⟩

end

namespace Spec.Transmitter
open Pipeline

theorem mem_thoseFrom (P : Nat → Nat → Bool) (qs : List (List U8)) : ∀ s q, q ∈ thoseFrom P s qs → q ∈ qs := by
  induction qs with
  | nil => intro s q h; cases h
  | cons a qs ih =>
    intro s q h
    rw [thoseFrom_cons, List.mem_append] at h
    rcases h with h | h
    · split at h
      · simp at h; simp [h]
      · cases h
    · exact List.mem_cons_of_mem _ (ih _ _ h)

/-- Of different packets: those that one of the selections selects are selected by the union of the selections. -/
theorem filter_thoseFrom {ι : Type} (L : List ι) (P : ι → Nat → Nat → Bool) (qs : List (List U8)) (hn : qs.Nodup) : ∀ s,
    qs.filter (fun q => decide (∃ i ∈ L, q ∈ thoseFrom (P i) s qs)) = thoseFrom (fun a e => L.any fun i => P i a e) s qs := by
  induction qs with
  | nil => intro s; rfl
  | cons a qs ih =>
    intro s
    rw [List.nodup_cons] at hn
    rw [thoseFrom_cons, ← ih hn.2, List.filter_cons]
    have h1 : decide (∃ i ∈ L, a ∈ thoseFrom (P i) s (a :: qs)) = L.any fun i => P i s (s + a.length) := by
      rw [Bool.eq_iff_iff, decide_eq_true_eq, List.any_eq_true]
      refine exists_congr fun i => and_congr_right fun _ => ?_
      rw [thoseFrom_cons, List.mem_append]
      constructor
      · rintro (h | h)
        · split at h
          · assumption
          · cases h
        · exact absurd (mem_thoseFrom _ _ _ _ h) hn.1
      · intro h; left; rw [if_pos h]; simp
    have h2 : qs.filter (fun q => decide (∃ i ∈ L, q ∈ thoseFrom (P i) s (a :: qs))) = qs.filter (fun q => decide (∃ i ∈ L, q ∈ thoseFrom (P i) (s + a.length) qs)) := by
      refine List.filter_congr fun q hq => ?_
      rw [decide_eq_decide]
      refine exists_congr fun i => and_congr_right fun _ => ?_
      rw [thoseFrom_cons, List.mem_append]
      constructor
      · rintro (h | h)
        · split at h
          · simp at h; subst h; exact absurd hq hn.1
          · cases h
        · exact h
      · exact .inr
    rw [h1, h2]
    split <;> simp

/-- C120. Any number of stations record the same transmission, each with its own losses, errors and noise, and decode it; each writes the packets of channel `v` it gets into a file. If
the packets sent are unsegmented, of at most 65536 bytes, and have increasing times that the merge can decode, merging the files gives exactly the packets sent that arrived whole at some station
(and that no frame with counter 0 cuts, C115), each once, in the order in which they were sent. -/
theorem C120_stations {Path : Type} [DecidableEq Path] (b : Build) (k : Codec) (hk : Bounded k ccsdsCode) (t : Transmitter) (packets : BitVec 6 → List (List U8)) (slots : List (BitVec 6))
    (o : RS.Opts) (h : Transmission b t packets slots o) (τ : Epoch → Int) (m : Merger Path) (files : Path → Option MFile) (hfiles : Readable files)
    (fates : Path → List Fate) (r : Path → Reader) (p : Path → RsStage.Params) (ps : Path → BitVec 6 → List (List U8))
    (hstation : ∀ x ∈ m.paths, List.Forall₂ t.Befalls (t.cadus packets slots) (fates x) ∧ NoticedAll t slots (fates x) ∧ Records (r x) ((fates x).flatMap Fate.bytes) ∧
      Gives b k t o (p x) (r x) (ps x))
    (v : BitVec 6) (hv : v ≠ 63) (hwritten : ∀ x ∈ m.paths, ∃ f, files x = some f ∧ f.content = (ps x v).flatten)
    (time : List U8 → Epoch) (hsent : ∀ q ∈ packets v, Mergeable b τ m q (time q))
    (horder : (packets v).Pairwise fun x y => τ (time x) < τ (time y) ∨ τ (time x) = τ (time y) ∧ rankOf m x < rankOf m y) :
    (∃ out, Merges b τ m files (.ok out)) ∧
    ∀ res, Merges b τ m files res →
      res = .ok (those (fun a e => (m.paths.any fun x => t.whole (fatesOf slots (fates x) v) a e) && !t.straddles v (slots.count v) a e) (packets v)) := by
  have hps : ∀ x ∈ m.paths, ps x v = thoseFrom (fun a e => t.whole (fatesOf slots (fates x) v) a e && !t.straddles v (slots.count v) a e) 0 (packets v) := by
    intro x hx
    obtain ⟨h1, h2, h3, h4⟩ := hstation x hx
    exact gives_eq hk h h1 h2 h3 h4 v hv
  obtain ⟨c1, c2⟩ := union_filter b τ m files hfiles (packets v) time hsent horder (fun x => ps x v) (fun x hx => ⟨hwritten x hx, fun q hq => by
    rw [hps x hx] at hq; exact mem_thoseFrom _ _ _ _ hq⟩)
  refine ⟨c1, fun res hres => ?_⟩
  rw [c2 res hres]
  congr 1
  have hn : (packets v).Nodup := horder.imp fun h e => by subst e; omega
  have e1 : (packets v).filter (fun q => decide (∃ x ∈ m.paths, q ∈ ps x v)) =
      (packets v).filter (fun q => decide (∃ x ∈ m.paths, q ∈ thoseFrom (fun a e => t.whole (fatesOf slots (fates x) v) a e && !t.straddles v (slots.count v) a e) 0 (packets v))) := by
    refine List.filter_congr fun q _ => ?_
    rw [decide_eq_decide]
    refine exists_congr fun x => and_congr_right fun hx => ?_
    rw [hps x hx]
  rw [e1, filter_thoseFrom m.paths _ _ hn 0, those_eq]
  congr 1
  funext a e
  generalize m.paths = L
  induction L with
  | nil => rfl
  | cons x L ih => rw [List.any_cons, List.any_cons, ih]; cases t.straddles v (slots.count v) a e <;> simp

/-! ## Two stations, and the transmission of C114

Station `false` misses the first data unit (and so the packet `exP1`), station `true` gets everything. Times are day 1799 and day 2313 (the bytes `7 7` and `9 9`). -/

/-- A time of this many days and milliseconds, as C14 says it is decoded. -/
def exTime (x : Nat) : Epoch := ⟨.utc, cdsInstant (257 * x) (16843009 * x) (257 * x)⟩

def exMerger : Merger Bool := Merger.new [false, true] (TimecodeDecoder.new (.cds 2 2))

theorem exMergeable (b : Build) (x : U8) (h6 : List U8) (n : Nat) (hn : 8 ≤ n) (hl : h6.length = 6) (hx : x = 7#8 ∨ x = 9#8) (hlen : 6 + n = packetLen h6) (hs : n ≤ 65530)
    (h3 : field h6 16 2 = 3) : Mergeable b (fun e => (e.nanos : Int)) exMerger (h6 ++ List.replicate n x) (exTime x.toNat) := by
  have hpre : ∀ s w, s + w ≤ 48 → field (h6 ++ List.replicate n x) s w = field h6 s w := by
    intro s w h
    rw [← field_take (h6 ++ List.replicate n x) 6 s w h, List.take_left' hl]
  refine ⟨⟨by simp [hl], ?_⟩, by simp [hl]; omega, by rw [hpre _ _ (by omega), h3], ?_, ?_, .inl rfl⟩
  · simp only [List.length_append, List.length_replicate, hl, hlen]
    unfold packetLen
    rw [hpre _ _ (by omega)]
  · intro p hp
    obtain ⟨hd, _, e⟩ := (C02_decode (h6 ++ List.replicate n x)).2.2 (by simp [hl]) (by
      simp only [List.length_append, List.length_replicate, hl, hlen]
      unfold packetLen
      rw [hpre _ _ (by omega)])
    rw [e] at hp
    have hp := (Except.ok.inj hp).symm
    have hd6 : p.data.drop 6 = List.replicate n x := by
      rw [hp]
      show (List.take _ _).drop 6 = _
      rw [List.take_of_length_le, List.drop_left' hl]
      simp only [List.length_append, List.length_replicate, hl, hlen]
      unfold packetLen
      rw [hpre _ _ (by omega)]
    have hpl : 6 ≤ p.data.length := by
      have := congrArg List.length hd6
      simp at this; omega
    have : exMerger.timeDecoder.decode b p = Timecode.decode b (.cds 2 2) (List.replicate n x) := by
      unfold TimecodeDecoder.decode
      rw [if_neg (by show ¬ p.data.length < 6; omega), show PrimaryHeader.LEN = 6 from rfl, hd6]
      rfl
    rw [this, (C14_decode b 2 2 ⟨by decide, by decide⟩ _).2 (by simp; omega)]
    have hf : ∀ s w, s + w ≤ 64 → field (List.replicate n x) s w = field (List.replicate 8 x) s w := by
      intro s w h
      rw [← field_take (List.replicate n x) 8 s w h, List.take_replicate, Nat.min_eq_left hn]
    rw [hf _ _ (by omega), hf _ _ (by omega), hf _ _ (by omega)]
    rcases hx with rfl | rfl <;> rfl
  · rcases hx with rfl | rfl <;> decide +kernel

theorem exSent (b : Build) (q : List U8) (hq : q ∈ [exP1, exP2]) : Mergeable b (fun e => (e.nanos : Int)) exMerger q (exTime (if q.length = 300 then 7 else 9)) := by
  have l1 : exP1.length = 300 := by decide +kernel
  have l2 : exP2.length = 130 := by decide +kernel
  simp only [List.mem_cons, List.not_mem_nil, or_false] at hq
  rcases hq with rfl | rfl
  · rw [l1]
    exact exMergeable b 7#8 [0x08#8, 0x05#8, 0xc0#8, 0x00#8, 0x01#8, 0x25#8] 294 (by decide) rfl (.inl rfl) rfl (by decide) rfl
  · rw [l2]
    exact exMergeable b 9#8 [0x08#8, 0x05#8, 0xc0#8, 0x01#8, 0x00#8, 0x7b#8] 124 (by decide) rfl (.inr rfl) rfl (by decide) rfl

theorem exOrder : [exP1, exP2].Pairwise fun x y => ((exTime (if x.length = 300 then 7 else 9)).nanos : Int) < (exTime (if y.length = 300 then 7 else 9)).nanos ∨
    ((exTime (if x.length = 300 then 7 else 9)).nanos : Int) = (exTime (if y.length = 300 then 7 else 9)).nanos ∧ rankOf exMerger x < rankOf exMerger y := by
  have l1 : exP1.length = 300 := by decide +kernel
  have l2 : exP2.length = 130 := by decide +kernel
  refine .cons (fun y hy => ?_) (.cons (fun y hy => by cases hy) .nil)
  simp only [List.mem_cons, List.not_mem_nil, or_false] at hy
  subst hy
  left
  rw [l1, l2]
  decide +kernel

/-- The contents of the two files. -/
def exGot (x y : List U8) : Bool → List (List U8)
  | false => [y]
  | true => [y, x, y]

theorem sublist_two {x y : List U8} {l : List (List U8)} (h : l.Sublist [x, y]) (hx : x ∈ l) (hy : y ∈ l) (hne : x ≠ y) : l = [x, y] := by
  refine h.eq_of_length ?_
  match l, hx, hy with
  | [], hx, _ => cases hx
  | [a], hx, hy =>
    simp only [List.mem_cons, List.not_mem_nil, or_false] at hx hy
    exact absurd (hx.trans hy.symm) hne
  | a :: b :: l, _, _ =>
    have := h.length_le
    simp only [List.length_cons, List.length_nil] at this ⊢
    omega

theorem exGot_sub (x y : List U8) (a : Bool) (q : List U8) (hq : q ∈ exGot x y a) : q ∈ [x, y] := by
  cases a <;> simp only [exGot, List.mem_cons, List.not_mem_nil, or_false] at hq ⊢ <;> tauto

/-- The merge of two files, of which one has only the second packet and the other both, one of them twice and out of order. -/
example (b : Build) (files : Bool → Option MFile) (hfiles : Readable files) (h : ∀ a, ∃ f, files a = some f ∧ f.content = (exGot exP1 exP2 a).flatten)
    (res : MResult) (hres : Merges b (fun e => (e.nanos : Int)) exMerger files res) : res = .ok [exP1, exP2] := by
  obtain ⟨out, rfl, h1, h2⟩ := (C120_union b _ exMerger files hfiles [exP1, exP2] _ (exSent b) exOrder (exGot exP1 exP2) (fun a _ => ⟨h a, exGot_sub _ _ a⟩)).2 res hres
  have hp : true ∈ exMerger.paths := .tail _ (.head _)
  have hne : exP1 ≠ exP2 := fun e => by
    have := congrArg List.length e
    rw [show exP1.length = 300 by decide +kernel, show exP2.length = 130 by decide +kernel] at this
    omega
  rw [sublist_two h1 ((h2 _).2 ⟨true, hp, by simp [exGot]⟩) ((h2 _).2 ⟨true, hp, by simp [exGot]⟩) hne]

theorem exFirst (c : List U8) (cs : List (List U8)) (hcs : exTransmitter.cadus exTxPackets exTxSlots = c :: cs) (x : Bool) :
    List.Forall₂ exTransmitter.Befalls (exTransmitter.cadus exTxPackets exTxSlots) (if x then (c :: cs).map .received else .lost :: cs.map .received) ∧
    NoticedAll exTransmitter exTxSlots (if x then (c :: cs).map .received else .lost :: cs.map .received) := by
  rw [hcs]
  cases x
  · exact ⟨exWorse_befalls c cs, exWorse_noticed _ cs⟩
  · exact ⟨exWhole_befalls _, exWhole_noticed _ _ _⟩

/-- C120 applies to the two stations. -/
example (b : Build) (c : List U8) (cs : List (List U8)) (hcs : exTransmitter.cadus exTxPackets exTxSlots = c :: cs) (r : Bool → Reader) (hr : Smooth (r false) cs.flatten)
    (hr' : Smooth (r true) (c :: cs).flatten) (p : Bool → RsStage.Params) (ps : Bool → BitVec 6 → List (List U8))
    (hg : ∀ x, Gives b (bddCodec ccsdsCode) exTransmitter ⟨1, 0, true, true⟩ (p x) (r x) (ps x)) (files : Bool → Option MFile) (hfiles : Readable files)
    (hw : ∀ x, ∃ f, files x = some f ∧ f.content = (ps x 1#6).flatten) : ∃ out, Merges b (fun e => (e.nanos : Int)) exMerger files (.ok out) := by
  refine (C120_stations b (bddCodec ccsdsCode) C113_distance.2 exTransmitter exTxPackets exTxSlots ⟨1, 0, true, true⟩ (exTx_transmission b) _ exMerger files hfiles
    (fun x => if x then (c :: cs).map .received else .lost :: cs.map .received) r p ps (fun x _ => ?_) 1#6 (by decide) (fun x _ => hw x) _ (exSent b) exOrder).1
  refine ⟨(exFirst c cs hcs x).1, (exFirst c cs hcs x).2, ?_, hg x⟩
  cases x
  · show Records (r false) ((Fate.lost :: cs.map .received).flatMap Fate.bytes)
    rw [List.flatMap_cons, received_bytes]
    exact records_plain _ cs hr
  · show Records (r true) (((c :: cs).map .received).flatMap Fate.bytes)
    rw [received_bytes]
    exact records_plain _ _ hr'

end Spec.Transmitter
end Ccsds
