import Verif.Props.Volume
import Verif.Props.MergeCheck
/-!
# C138: which copy of a packet `merge` writes
-/
namespace Ccsds
open Spec Merger

section Merging
variable {Path : Type} [DecidableEq Path]

/-- `ks` lists, once each, the keys (APID, sequence id and time) of the groups of the input file `p` that are to be merged. -/
def HasKeys (b : Build) (τ : Epoch → Int) (m : Merger Path) (files : Path → Option MFile) (p : Path) (ks : List (Option (U16 × U16) × Int)) : Prop :=
  ks.Nodup ∧ ∀ k, k ∈ ks ↔ ∃ e, Inputs b τ m files e ∧ e.path = p ∧ e.key τ = k

theorem length_of_subset {α : Type} [DecidableEq α] {l g : List α} (hn : l.Nodup) (h : ∀ x ∈ l, x ∈ g) : l.length ≤ g.length := by
  have := sum_subset (fun _ => 1) l g hn h
  have hs : ∀ l : List α, (l.map fun _ => 1).sum = l.length := by
    intro l
    induction l with
    | nil => rfl
    | cons x l ih => rw [List.map_cons, List.sum_cons, ih, List.length_cons]; omega
  rwa [hs, hs] at this

/-- The pointers collected for a file: as many as it has keys, all with its path, and one for each entry. -/
theorem pointers_keys {b : Build} {τ : Epoch → Int} {m : Merger Path} {files : Path → Option MFile} (hfiles : Readable files) {p : Path} (hp : p ∈ m.paths) {f : MFile}
    (hf : files p = some f) {r : List (Ptr Path)} (h : m.Pointers b τ p f (some r)) {ks : List (Option (U16 × U16) × Int)} (hk : HasKeys b τ m files p ks) :
    r.length = ks.length ∧ (∀ q ∈ r, q.path = p) ∧ ∀ e, Inputs b τ m files e → e.key τ ∈ ks → (entryPtr m e).key τ ∈ r.map (Ptr.key τ) := by
  obtain ⟨gs, h1, h2, h3, h4⟩ := pointers_spec (hfiles p f hf) h
  have hpath : ∀ q ∈ r, q.path = p := by
    intro q hq
    obtain ⟨g, hg, hpt⟩ := h3 q hq
    obtain ⟨first, rest, e1, e2, e3⟩ := pointer_some hpt
    rw [e3]; rfl
  obtain ⟨es, e1, e2⟩ := entries_of_ptrs (b := b) (τ := τ) (m := m) (files := files) r (by
    intro q hq
    obtain ⟨g, hg, hpt⟩ := h3 q hq
    obtain ⟨first, rest, e1, e2, e3⟩ := pointer_some hpt
    have hp' := hpath q hq
    exact ⟨by rw [hp']; exact hp, f, gs, g, first, rest, by rw [hp']; exact hf, h1, hg, e1, e2, by rw [hp']; exact e3⟩)
  have hep : ∀ e ∈ es, e.path = p := by
    intro e he
    have := hpath (entryPtr m e) (by rw [e1]; exact List.mem_map_of_mem he)
    rwa [(entryPtr_fields (e2 e he)).2.1] at this
  have hn : (es.map (Entry.key τ)).Nodup := by
    rw [e1, List.map_map] at h2
    exact nodup_transfer _ _ _ h2 fun x hx y hy h => (entryPtr_key (e2 x hx) (e2 y hy)).2 h
  have hall : ∀ e, Inputs b τ m files e → e.path = p → (entryPtr m e).key τ ∈ r.map (Ptr.key τ) := by
    intro e he hpe
    obtain ⟨_, f', gs', a2, a3, a4, a5⟩ := id he
    rw [hpe, hf] at a2
    cases a2
    rw [fileGroups_unique a3 h1] at a4
    obtain ⟨first, rest, g1, g2⟩ := pointer_eligible (path := p) a5
    have := h4 _ a4 _ g2
    rwa [show entryPtr m e = ptrOf m p e.group first e.time by simp [entryPtr, g1, hpe]]
  refine ⟨?_, hpath, ?_⟩
  · have hl : r.length = (es.map (Entry.key τ)).length := by rw [e1, List.length_map, List.length_map]
    rw [hl]
    refine Nat.le_antisymm (length_of_subset hn ?_) (length_of_subset hk.1 ?_)
    · intro k hkm
      obtain ⟨e, he, rfl⟩ := List.mem_map.1 hkm
      exact (hk.2 _).2 ⟨e, e2 e he, hep e he, rfl⟩
    · intro k hkm
      obtain ⟨e, he, hpe, rfl⟩ := (hk.2 k).1 hkm
      have := hall e he hpe
      rw [e1, List.map_map] at this
      obtain ⟨x, hx, hxe⟩ := List.mem_map.1 this
      exact List.mem_map.2 ⟨x, hx, (entryPtr_key (e2 x hx) he).1 hxe⟩
  · intro e he hkm
    obtain ⟨e', he', hpe, hke⟩ := (hk.2 _).1 hkm
    rw [(entryPtr_key he he').2 hke.symm]
    exact hall e' he' hpe

/-- Of two files, visited in this order: the one with more keys provides the copies, the first one if they have equally many. -/
theorem two_index {b : Build} {τ : Epoch → Int} {m : Merger Path} {files : Path → Option MFile} (hfiles : Readable files) {p1 p2 : Path} (h1 : p1 ∈ m.paths) (h2 : p2 ∈ m.paths)
    {k1 k2 : List (Option (U16 × U16) × Int)} (hk1 : HasKeys b τ m files p1 k1) (hk2 : HasKeys b τ m files p2 k2) {idx : List (Ptr Path)}
    (hi : Index b τ m files [p1, p2] [] (some idx)) :
    (k2.length ≤ k1.length ∧ ∀ q ∈ idx, ∀ e, Inputs b τ m files e → e.key τ ∈ k1 → q.key τ = (entryPtr m e).key τ → q.path = p1) ∨
    (k1.length < k2.length ∧ ∀ q ∈ idx, ∀ e, Inputs b τ m files e → e.key τ ∈ k2 → q.key τ = (entryPtr m e).key τ → q.path = p2) := by
  cases hi with
  | @step _ _ f1 _ i1 new1 new1' _ hf1 hn1 hperm1 hpi1 hi =>
    cases hi with
    | @step _ _ f2 _ i2 new2 new2' _ hf2 hn2 hperm2 hpi2 hi =>
      cases hi
      obtain ⟨l1, a1, b1⟩ := pointers_keys hfiles h1 hf1 hn1 hk1
      obtain ⟨l2, a2, b2⟩ := pointers_keys hfiles h2 hf2 hn2 hk2
      have e1 : i1 = [] := List.Perm.eq_nil hpi1
      subst e1
      have hu : i2.Perm new1 := by
        refine hpi2.trans ?_
        refine List.Perm.trans ?_ hperm1
        unfold Ptr.union
        split
        · rename_i h
          obtain rfl := List.eq_nil_of_length_eq_zero (by simpa using h)
          exact List.Perm.refl _
        · rw [show Ptr.diff τ [] new1' = [] by rfl, List.append_nil]
      unfold Ptr.union
      split
      · rename_i hle
        left
        refine ⟨by rw [← l1, ← l2, ← hu.length_eq, ← hperm2.length_eq]; exact hle, ?_⟩
        intro q hq e he hke hqe
        rcases List.mem_append.1 hq with hq | hq
        · exact a1 q (hu.mem_iff.1 hq)
        · exfalso
          have := (List.mem_filter.1 hq).2
          simp only [Bool.not_eq_true', decide_eq_false_iff_not] at this
          exact this ((hu.map _).mem_iff.2 (hqe ▸ b1 e he hke))
      · rename_i hle
        right
        refine ⟨by rw [← l1, ← l2, ← hu.length_eq, ← hperm2.length_eq]; omega, ?_⟩
        intro q hq e he hke hqe
        rcases List.mem_append.1 hq with hq | hq
        · exact a2 q (hperm2.mem_iff.1 hq)
        · exfalso
          have := (List.mem_filter.1 hq).2
          simp only [Bool.not_eq_true', decide_eq_false_iff_not] at this
          exact this ((hperm2.map _).mem_iff.2 (hqe ▸ b2 e he hke))

theorem perm_pair {x y : Path} {l : List Path} (h : l.Perm [x, y]) : l = [x, y] ∨ l = [y, x] := by
  have hl := h.length_eq
  match l, hl with
  | [u, v], _ =>
    have hx : x ∈ [u, v] := h.mem_iff.2 (by simp)
    have hc := fun z => h.count_eq z
    by_cases e : u = x
    · subst e
      have : v ∈ [u, y] := h.mem_iff.1 (by simp)
      have h2 := hc v
      by_cases e2 : v = y
      · left; rw [e2]
      · have e3 : v = u := by simpa [e2] using this
        subst e3
        simp [List.count_cons] at h2
        exact absurd (h2.symm) e2
    · have e2 : v = x := by
        simp only [List.mem_cons, List.not_mem_nil, or_false] at hx
        rcases hx with hx | hx
        · exact absurd hx.symm e
        · exact hx.symm
      subst e2
      have : u ∈ [v, y] := h.mem_iff.1 (by simp)
      have e3 : u = y := by simpa [e] using this
      right; rw [e3]

theorem distinct_pair {pa pb : Path} (hne : pa ≠ pb) {l : List Path} (hl : ∀ p, p ∈ l ↔ p = pa ∨ p = pb) : (Merger.distinct l).Perm [pa, pb] := by
  have hn : ∀ l : List Path, (Merger.distinct l).Nodup := by
    intro l
    induction l with
    | nil => exact List.nodup_nil
    | cons x l ih =>
      rw [Merger.distinct]
      split
      · exact ih
      · rename_i h
        exact List.nodup_cons.2 ⟨fun h' => h ((mem_distinct _ _).1 h'), ih⟩
  have hm : ∀ p, p ∈ Merger.distinct l ↔ p = pa ∨ p = pb := fun p => (mem_distinct _ _).trans (hl p)
  have hd := hn l
  generalize Merger.distinct l = d at hm hd
  refine List.perm_iff_count.2 fun p => ?_
  rw [hd.count, List.Nodup.count (by simp [hne])]
  simp [hm]

/-- The copies written for the keys `ks` are those of the file `p`. -/
def AllFrom (τ : Epoch → Int) (p : Path) (ks : List (Option (U16 × U16) × Int)) (es : List (Entry Path)) : Prop := ∀ e ∈ es, e.key τ ∈ ks → e.path = p

theorem two_entries {b : Build} {τ : Epoch → Int} {m : Merger Path} {files : Path → Option MFile} (hfiles : Readable files) {p1 p2 : Path} (h1 : p1 ∈ m.paths) (h2 : p2 ∈ m.paths)
    {k1 k2 : List (Option (U16 × U16) × Int)} (hk1 : HasKeys b τ m files p1 k1) (hk2 : HasKeys b τ m files p2 k2) {idx idx' : List (Ptr Path)}
    (hv : [p1, p2].Perm (Merger.distinct m.paths)) (hi : Index b τ m files [p1, p2] [] (some idx)) (hp : idx'.Perm idx) :
    ∃ es, emit files (idx'.mergeSort (Ptr.le τ)) [] = .ok (es.map Entry.bytes) ∧ IsMerge b τ m files (es.map Entry.bytes) es ∧
      ((k2.length ≤ k1.length ∧ AllFrom τ p1 k1 es) ∨ (k1.length < k2.length ∧ AllFrom τ p2 k2 es)) := by
  obtain ⟨es, e1, e2⟩ := index_merge hfiles hv hi hp
  have hperm : (idx'.mergeSort (Ptr.le τ)).Perm idx := (List.mergeSort_perm _ _).trans hp
  have hmem : ∀ e ∈ es, entryPtr m e ∈ idx := fun e he => hperm.mem_iff.1 (by rw [e1]; exact List.mem_map_of_mem he)
  refine ⟨es, by rw [e1, emit_entries hfiles es e2.inputs, List.nil_append], e2, ?_⟩
  rcases two_index hfiles h1 h2 hk1 hk2 hi with ⟨hl, ha⟩ | ⟨hl, ha⟩
  · refine .inl ⟨hl, fun e he hk => ?_⟩
    rw [← (entryPtr_fields (e2.inputs e he)).2.1]
    exact ha _ (hmem e he) e (e2.inputs e he) hk rfl
  · refine .inr ⟨hl, fun e he hk => ?_⟩
    rw [← (entryPtr_fields (e2.inputs e he)).2.1]
    exact ha _ (hmem e he) e (e2.inputs e he) hk rfl

/-- C138: of a group that both of two inputs have (the same APID, sequence id and time), but with different bytes, the merged file has the copy of the input with more groups,
in whatever order the inputs are given; every other key is as in C21. Nothing is said about which one is damaged: nothing is looked at. -/
theorem C138_two (b : Build) (τ : Epoch → Int) (m : Merger Path) (files : Path → Option MFile) (hfiles : Readable files) (pa pb : Path) (hne : pa ≠ pb)
    (hpaths : ∀ p, p ∈ m.paths ↔ p = pa ∨ p = pb) (ka kb : List (Option (U16 × U16) × Int)) (hka : HasKeys b τ m files pa ka) (hkb : HasKeys b τ m files pb kb)
    (out : List (List U8)) (h : Merges b τ m files (.ok out)) :
    ∃ es, IsMerge b τ m files out es ∧
      ((kb.length ≤ ka.length ∧ AllFrom τ pa ka es) ∨ (ka.length ≤ kb.length ∧ AllFrom τ pb kb es)) := by
  generalize hr : MResult.ok out = r at h
  have ha := (hpaths pa).2 (.inl rfl)
  have hb := (hpaths pb).2 (.inr rfl)
  cases h with
  | openFails => cases hr
  | panicked => cases hr
  | @finished visit idx idx' _ hv hi hp =>
    rcases perm_pair (hv.trans (distinct_pair hne hpaths)) with rfl | rfl
    · obtain ⟨es, e1, e2, e3⟩ := two_entries hfiles ha hb hka hkb hv hi hp
      rw [e1] at hr
      cases hr
      exact ⟨es, e2, e3.imp id fun ⟨x, y⟩ => ⟨Nat.le_of_lt x, y⟩⟩
    · obtain ⟨es, e1, e2, e3⟩ := two_entries hfiles hb ha hkb hka hv hi hp
      rw [e1] at hr
      cases hr
      exact ⟨es, e2, e3.symm.imp (fun ⟨x, y⟩ => ⟨Nat.le_of_lt x, y⟩) id⟩

/-- C138: the input with more groups wins. -/
theorem C138_larger (b : Build) (τ : Epoch → Int) (m : Merger Path) (files : Path → Option MFile) (hfiles : Readable files) (pa pb : Path) (hne : pa ≠ pb)
    (hpaths : ∀ p, p ∈ m.paths ↔ p = pa ∨ p = pb) (ka kb : List (Option (U16 × U16) × Int)) (hka : HasKeys b τ m files pa ka) (hkb : HasKeys b τ m files pb kb)
    (hlt : kb.length < ka.length) (out : List (List U8)) (h : Merges b τ m files (.ok out)) :
    ∃ es, IsMerge b τ m files out es ∧ AllFrom τ pa ka es := by
  obtain ⟨es, e1, e2⟩ := C138_two b τ m files hfiles pa pb hne hpaths ka kb hka hkb out h
  rcases e2 with ⟨_, e2⟩ | ⟨h', _⟩
  · exact ⟨es, e1, e2⟩
  · omega

/-- C138: of two inputs with equally many groups either may win, all or none, as the hash map of the readers happens to be walked. -/
theorem C138_tie (b : Build) (τ : Epoch → Int) (m : Merger Path) (files : Path → Option MFile) (hfiles : Readable files) (pa pb : Path) (hne : pa ≠ pb)
    (hpaths : ∀ p, p ∈ m.paths ↔ p = pa ∨ p = pb) (ka kb : List (Option (U16 × U16) × Int)) (hka : HasKeys b τ m files pa ka) (hkb : HasKeys b τ m files pb kb)
    (heq : ka.length = kb.length) (hok : ∀ p ∈ m.paths, ∃ f, files p = some f ∧ ¬ FilePanics b m.timeDecoder f) :
    (∃ out es, Merges b τ m files (.ok out) ∧ IsMerge b τ m files out es ∧ AllFrom τ pa ka es) ∧
    (∃ out es, Merges b τ m files (.ok out) ∧ IsMerge b τ m files out es ∧ AllFrom τ pb kb es) := by
  have ha := (hpaths pa).2 (.inl rfl)
  have hb := (hpaths pb).2 (.inr rfl)
  have hopen : ∀ p ∈ m.paths, files p ≠ none := by
    intro p hp
    obtain ⟨f, hf, _⟩ := hok p hp
    rw [hf]; simp
  have hd := distinct_pair hne hpaths
  constructor
  · obtain ⟨idx, hi⟩ := index_total (τ := τ) hfiles [pa, pb] (fun p hp => hok p ((hpaths p).2 (by simpa using hp))) []
    obtain ⟨es, e1, e2, e3⟩ := two_entries hfiles ha hb hka hkb hd.symm hi (List.Perm.refl _)
    refine ⟨_, es, e1 ▸ .finished hopen hd.symm hi (List.Perm.refl _), e2, ?_⟩
    rcases e3 with ⟨_, h⟩ | ⟨h, _⟩
    · exact h
    · omega
  · obtain ⟨idx, hi⟩ := index_total (τ := τ) hfiles [pb, pa] (fun p hp => hok p ((hpaths p).2 (by simpa [or_comm] using hp))) []
    have hv : [pb, pa].Perm (Merger.distinct m.paths) := (List.Perm.swap _ _ _).trans hd.symm
    obtain ⟨es, e1, e2, e3⟩ := two_entries hfiles hb ha hkb hka hv hi (List.Perm.refl _)
    refine ⟨_, es, e1 ▸ .finished hopen hv hi (List.Perm.refl _), e2, ?_⟩
    rcases e3 with ⟨_, h⟩ | ⟨h, _⟩
    · exact h
    · omega

/-! ## More than two inputs -/

/-- Pointers into inputs other than `p`, no two with the same key: at most as many as there are keys in the other inputs. -/
theorem ptrs_bound {b : Build} {τ : Epoch → Int} {m : Merger Path} {files : Path → Option MFile} {p : Path} {ko : List (Option (U16 × U16) × Int)}
    (ho : ∀ e, Inputs b τ m files e → e.path ≠ p → e.key τ ∈ ko) {l : List (Ptr Path)} (hn : (l.map (Ptr.key τ)).Nodup) (hg : ∀ q ∈ l, PtrGood b τ m files q)
    (hp : ∀ q ∈ l, q.path ≠ p) : l.length ≤ ko.length := by
  obtain ⟨es, rfl, e2⟩ := entries_of_ptrs l hg
  have hn' : (es.map (Entry.key τ)).Nodup := by
    rw [List.map_map] at hn
    exact nodup_transfer _ _ _ hn fun x hx y hy h => (entryPtr_key (e2 x hx) (e2 y hy)).2 h
  rw [List.length_map, ← List.length_map (f := Entry.key τ)]
  refine length_of_subset hn' fun k hk => ?_
  obtain ⟨e, he, rfl⟩ := List.mem_map.1 hk
  refine ho e (e2 e he) ?_
  have := hp _ (List.mem_map_of_mem he)
  rwa [(entryPtr_fields (e2 e he)).2.1] at this

/-- The index has every key of the input `p`, from there. -/
def Master (b : Build) (τ : Epoch → Int) (m : Merger Path) (files : Path → Option MFile) (p : Path) (kp : List (Option (U16 × U16) × Int)) (idx : List (Ptr Path)) : Prop :=
  kp.length ≤ idx.length ∧ ∀ e, Inputs b τ m files e → e.key τ ∈ kp → (entryPtr m e).key τ ∈ idx.map (Ptr.key τ) ∧ ∀ q ∈ idx, q.key τ = (entryPtr m e).key τ → q.path = p

omit [DecidableEq Path] in
theorem master_perm {b : Build} {τ : Epoch → Int} {m : Merger Path} {files : Path → Option MFile} {p : Path} {kp : List (Option (U16 × U16) × Int)} {i j : List (Ptr Path)}
    (hp : i.Perm j) (h : Master b τ m files p kp j) : Master b τ m files p kp i :=
  ⟨by rw [hp.length_eq]; exact h.1, fun e he hk => ⟨(hp.map _).mem_iff.2 (h.2 e he hk).1, fun q hq => (h.2 e he hk).2 q (hp.mem_iff.1 hq)⟩⟩

omit [DecidableEq Path] in
theorem master_keeps {b : Build} {τ : Epoch → Int} {m : Merger Path} {files : Path → Option MFile} {p : Path} {kp : List (Option (U16 × U16) × Int)} {i n : List (Ptr Path)}
    (h : Master b τ m files p kp i) (rest : List (Ptr Path)) (hr : rest = Ptr.diff τ n i) : Master b τ m files p kp (i ++ rest) := by
  subst hr
  refine ⟨by rw [List.length_append]; have := h.1; omega, fun e he hk => ⟨by rw [List.map_append]; exact List.mem_append_left _ (h.2 e he hk).1, fun q hq hqe => ?_⟩⟩
  rcases List.mem_append.1 hq with hq | hq
  · exact (h.2 e he hk).2 q hq hqe
  · exfalso
    have := (List.mem_filter.1 hq).2
    simp only [Bool.not_eq_true', decide_eq_false_iff_not] at this
    exact this (hqe ▸ (h.2 e he hk).1)

theorem master_index {b : Build} {τ : Epoch → Int} {m : Merger Path} {files : Path → Option MFile} (hfiles : Readable files) {p : Path} (hp : p ∈ m.paths)
    {kp ko : List (Option (U16 × U16) × Int)} (hk : HasKeys b τ m files p kp) (ho : ∀ e, Inputs b τ m files e → e.path ≠ p → e.key τ ∈ ko) (hlt : ko.length < kp.length)
    {visit : List Path} {idx : List (Ptr Path)} {r : Option (List (Ptr Path))} (h : Index b τ m files visit idx r) : ∀ {res}, r = some res → (∀ x ∈ visit, x ∈ m.paths) →
    (idx.map (Ptr.key τ)).Nodup → (∀ q ∈ idx, PtrGood b τ m files q) → ((p ∈ visit ∧ ∀ q ∈ idx, q.path ≠ p) ∨ Master b τ m files p kp idx) → Master b τ m files p kp res := by
  induction h with
  | done =>
    intro res hr _ _ _ hd
    cases hr
    rcases hd with ⟨hd, _⟩ | hd
    · cases hd
    · exact hd
  | panicked => intro res hr; cases hr
  | @step x ps f idx idx' new new' r hf hnew hpn hpi _ ih =>
    intro res hr hv hn hg hd
    have hx := hv x (by simp)
    obtain ⟨gs, s1, s2, s3, s4⟩ := pointers_spec (hfiles x f hf) hnew
    have hpath : ∀ q ∈ new, q.path = x := by
      intro q hq
      obtain ⟨g, _, hpt⟩ := s3 q hq
      obtain ⟨first, rest, _, _, e3⟩ := pointer_some hpt
      rw [e3]; rfl
    have hgood : ∀ q ∈ new, PtrGood b τ m files q := by
      intro q hq
      obtain ⟨g, hgm, hpt⟩ := s3 q hq
      obtain ⟨first, rest, e1, e2, e3⟩ := pointer_some hpt
      have hp' := hpath q hq
      exact ⟨by rw [hp']; exact hx, f, gs, g, first, rest, by rw [hp']; exact hf, s1, hgm, e1, e2, by rw [hp']; exact e3⟩
    have hn1 : (idx'.map (Ptr.key τ)).Nodup := ((hpi.map _).nodup_iff).2 hn
    have hn2 : (new'.map (Ptr.key τ)).Nodup := ((hpn.map _).nodup_iff).2 s2
    obtain ⟨u1, _, u3⟩ := Ptr.union_spec τ idx' new' hn1 hn2
    have hu : ∀ q ∈ Ptr.union τ idx' new', PtrGood b τ m files q := fun q hq => (u3 q hq).elim (fun h => hg q (hpi.mem_iff.1 h)) (fun h => hgood q (hpn.mem_iff.1 h))
    refine ih hr (fun y hy => hv y (by simp [hy])) u1 hu ?_
    have hle : Master b τ m files p kp idx → new'.length ≤ idx'.length := by
      intro hd
      rw [hpn.length_eq, hpi.length_eq]
      refine Nat.le_trans ?_ hd.1
      by_cases e : x = p
      · subst e
        exact Nat.le_of_eq (pointers_keys hfiles hp hf hnew hk).1
      · exact Nat.le_trans (ptrs_bound ho s2 hgood fun q hq => by rw [hpath q hq]; exact e) (Nat.le_of_lt hlt)
    rcases hd with ⟨hpv, hd⟩ | hd
    · by_cases e : x = p
      · subst e
        right
        obtain ⟨l1, l2, l3⟩ := pointers_keys hfiles hp hf hnew hk
        have := ptrs_bound ho hn hg hd
        unfold Ptr.union
        rw [if_neg (by rw [hpn.length_eq, hpi.length_eq]; omega)]
        refine master_keeps (master_perm hpn ⟨Nat.le_of_eq l1.symm, fun e he hke => ⟨l3 e he hke, fun q hq _ => l2 q hq⟩⟩) _ rfl
      · left
        refine ⟨(List.mem_cons.1 hpv).resolve_left (fun h => e h.symm), fun q hq => ?_⟩
        rcases u3 q hq with h | h
        · exact hd q (hpi.mem_iff.1 h)
        · rw [hpath q (hpn.mem_iff.1 h)]; exact e
    · right
      unfold Ptr.union
      rw [if_pos (hle hd)]
      exact master_keeps (master_perm hpi hd) _ rfl

/-- C138 for any number of inputs: an input with more groups than there are distinct ones in all the others together provides all its copies, in whatever order the inputs are
read. -/
theorem C138_master (b : Build) (τ : Epoch → Int) (m : Merger Path) (files : Path → Option MFile) (hfiles : Readable files) (p : Path) (hp : p ∈ m.paths)
    (kp ko : List (Option (U16 × U16) × Int)) (hk : HasKeys b τ m files p kp) (ho : ∀ e, Inputs b τ m files e → e.path ≠ p → e.key τ ∈ ko) (hlt : ko.length < kp.length)
    (out : List (List U8)) (h : Merges b τ m files (.ok out)) : ∃ es, IsMerge b τ m files out es ∧ AllFrom τ p kp es := by
  generalize hr : MResult.ok out = r at h
  cases h with
  | openFails => cases hr
  | panicked => cases hr
  | @finished visit idx idx' _ hv hi hperm =>
    obtain ⟨es, e1, e2⟩ := index_merge hfiles hv hi hperm
    have hin : ∀ x ∈ visit, x ∈ m.paths := fun x hx => (mem_distinct _ _).1 (hv.mem_iff.1 hx)
    have hm := master_index hfiles hp hk ho hlt hi rfl hin (by simp) (by simp) (.inl ⟨hv.mem_iff.2 ((mem_distinct _ _).2 hp), by simp⟩)
    have hperm' : (idx'.mergeSort (Ptr.le τ)).Perm idx := (List.mergeSort_perm _ _).trans hperm
    rw [e1, emit_entries hfiles es e2.inputs, List.nil_append] at hr
    cases hr
    refine ⟨es, e2, fun e he hke => ?_⟩
    rw [← (entryPtr_fields (e2.inputs e he)).2.1]
    exact (hm.2 e (e2.inputs e he) hke).2 _ (hperm'.mem_iff.1 (by rw [e1]; exact List.mem_map_of_mem he)) rfl

end Merging

/-! Two receptions of a packet, one of them with a damaged last byte: the damaged one is written, because its file also has a packet of another APID. -/
namespace WhichCopyEx
open AgreeEx FMEx MergeCheckEx

def copy (x : U8) : List U8 := [0x08#8, 1#8, 0xc0#8, 0#8, 0#8, 8#8] ++ [2#8, 0#8, 0#8, 0#8, 0#8, 0#8, 0#8, 0#8] ++ [x]
def copyPkt (x : U8) : Packet := ⟨⟨0#8, 0#8, true, 1#16, 3#8, 0#16, 8#16⟩, copy x, 0⟩
def gCopy (x : U8) : PacketGroup := ⟨1#16, [copyPkt x]⟩

def files : Nat → Option MFile
  | 0 => some (MergeEx.file (copy 0xff#8 ++ first))
  | 1 => some (MergeEx.file (copy 0#8))
  | _ => none
def merger : Merger Nat := mergerOf [1, 0]

theorem readable : Readable files := by
  intro p f hf
  match p, hf with
  | 0, hf => cases hf; exact FuseEx.delivers (by decide)
  | 1, hf => cases hf; exact FuseEx.delivers (by decide)

theorem groups0 : FileGroups (MergeEx.file (copy 0xff#8 ++ first)) [gCopy 0xff#8, gFirst 15] :=
  ⟨[copyPkt 0xff#8, pkt 1#8 2#8 0xc0#8 0#8 15], _, _, .step rfl (.step rfl (.done rfl)), .step rfl (.step rfl (.done rfl))⟩
theorem groups1 : FileGroups (MergeEx.file (copy 0#8)) [gCopy 0#8] := ⟨[copyPkt 0#8], _, _, .step rfl (.done rfl), .step rfl (.done rfl)⟩

theorem decCopy (b : Build) (x : U8) : MergeEx.dec.decode b (copyPkt x) = .ret (.ok (time 2)) := by
  have h1 : MergeEx.dec.decode b (copyPkt x) = Timecode.decode b (.cds 2 2) ([2#8, 0#8, 0#8, 0#8, 0#8, 0#8, 0#8, 0#8] ++ [x]) := rfl
  rw [h1]
  cases b with | mk o => cases o <;> (revert x; decide)

theorem isCopy (b : Build) (p : Nat) (x : U8) (hp : p ∈ [1, 0]) (f : MFile) (gs : List PacketGroup) (hf : files p = some f) (hg : FileGroups f gs) (hmem : gCopy x ∈ gs) :
    Inputs b MergeEx.tau merger files ⟨p, gCopy x, time 2⟩ :=
  ⟨hp, f, gs, hf, hg, hmem, _, _, rfl, .inr (by rfl), decCopy b x, since2, before2, .inl rfl⟩

theorem isOther (b : Build) : Inputs b MergeEx.tau merger files ⟨0, gFirst 15, time 1⟩ :=
  ⟨by simp [merger, mergerOf], _, _, rfl, groups0, by simp, _, _, rfl, .inr (by rfl), decFirst b 15, since1, before1, .inl rfl⟩

theorem inputs0 {b : Build} {e : Entry Nat} (h : Inputs b MergeEx.tau merger files e) (hp : e.path = 0) : e = ⟨0, gCopy 0xff#8, time 2⟩ ∨ e = ⟨0, gFirst 15, time 1⟩ := by
  obtain ⟨p, g, t⟩ := e
  simp only at hp
  subst hp
  obtain ⟨_, f, gs, hf, hgs, hg, he⟩ := h
  simp only at hf hg he
  cases hf
  obtain rfl := Merger.fileGroups_unique hgs groups0
  obtain ⟨fp, rest, ep, _, hd, _⟩ := he
  rcases List.mem_cons.1 hg with rfl | hg
  · have e1 : copyPkt 0xff#8 = fp := (List.cons.inj ep).1
    subst e1
    have := (decCopy b 0xff#8).symm.trans hd
    simp only [Outcome.ret.injEq, Except.ok.injEq] at this
    exact .inl (by rw [this])
  · obtain rfl := List.mem_singleton.1 hg
    have e1 : pkt 1#8 2#8 0xc0#8 0#8 15 = fp := (List.cons.inj ep).1
    subst e1
    have := (decFirst b 15).symm.trans hd
    simp only [Outcome.ret.injEq, Except.ok.injEq] at this
    exact .inr (by rw [this])

theorem inputs1 {b : Build} {e : Entry Nat} (h : Inputs b MergeEx.tau merger files e) (hp : e.path = 1) : e = ⟨1, gCopy 0#8, time 2⟩ := by
  obtain ⟨p, g, t⟩ := e
  simp only at hp
  subst hp
  obtain ⟨_, f, gs, hf, hgs, hg, he⟩ := h
  simp only at hf hg he
  cases hf
  obtain rfl := Merger.fileGroups_unique hgs groups1
  obtain ⟨fp, rest, ep, _, hd, _⟩ := he
  obtain rfl := List.mem_singleton.1 hg
  have e1 : copyPkt 0#8 = fp := (List.cons.inj ep).1
  subst e1
  have := (decCopy b 0#8).symm.trans hd
  simp only [Outcome.ret.injEq, Except.ok.injEq] at this
  rw [this]

def kCopy : Option (U16 × U16) × Int := (some (1#16, 0#16), MergeEx.tau (time 2))
def kOther : Option (U16 × U16) × Int := (some (2#16, 0#16), MergeEx.tau (time 1))

theorem keys0 (b : Build) : HasKeys b MergeEx.tau merger files 0 [kCopy, kOther] := by
  refine ⟨by decide, fun k => ⟨fun hk => ?_, ?_⟩⟩
  · rcases List.mem_cons.1 hk with rfl | hk
    · exact ⟨_, isCopy b 0 0xff#8 (by simp) _ _ rfl groups0 (by simp), rfl, rfl⟩
    · obtain rfl := List.mem_singleton.1 hk
      exact ⟨_, isOther b, rfl, rfl⟩
  · rintro ⟨e, he, hp, rfl⟩
    rcases inputs0 he hp with rfl | rfl
    · exact List.mem_cons_self
    · exact List.mem_cons_of_mem _ (List.mem_singleton.2 rfl)
theorem keys1 (b : Build) : HasKeys b MergeEx.tau merger files 1 [kCopy] := by
  refine ⟨by decide, fun k => ⟨fun hk => ?_, ?_⟩⟩
  · obtain rfl := List.mem_singleton.1 hk
    exact ⟨_, isCopy b 1 0#8 (by simp) _ _ rfl groups1 (by simp), rfl, rfl⟩
  · rintro ⟨e, he, hp, rfl⟩
    rw [inputs1 he hp]
    exact List.mem_singleton.2 rfl

/-- Whatever order the files are visited in, the damaged copy comes out and the intact one does not. -/
theorem C138_damaged (b : Build) (out : List (List U8)) (h : Merges b MergeEx.tau merger files (.ok out)) : copy 0xff#8 ∈ out ∧ copy 0#8 ∉ out := by
  obtain ⟨es, hm, ha⟩ := C138_larger b MergeEx.tau merger files readable 0 1 (by decide) (by simp [merger, mergerOf, or_comm]) _ _ (keys0 b) (keys1 b) (by decide) out h
  have hall : ∀ e ∈ es, e = ⟨0, gCopy 0xff#8, time 2⟩ ∨ e = ⟨0, gFirst 15, time 1⟩ := by
    intro e he
    have hin := hm.inputs e he
    have hp : e.path = 1 ∨ e.path = 0 := by simpa [merger, mergerOf] using hin.1
    rcases hp with hp | hp
    · have := ha e he (by rw [inputs1 hin hp]; exact List.mem_cons_self)
      rw [hp] at this
      cases this
    · exact inputs0 hin hp
  constructor
  · obtain ⟨e, he, hk⟩ := List.mem_map.1 (hm.complete _ (isCopy b 0 0xff#8 (by simp) _ _ rfl groups0 (by simp)))
    rcases hall e he with rfl | rfl
    · rw [hm.bytes]
      exact List.mem_map.2 ⟨_, he, by rfl⟩
    · exact absurd hk (by decide)
  · rw [hm.bytes]
    intro hc
    obtain ⟨e, he, hb⟩ := List.mem_map.1 hc
    rcases hall e he with rfl | rfl
    · exact absurd hb (by decide)
    · exact absurd hb (by decide)

/-! Three inputs: the one with two groups provides its copies, whatever the two others say. -/
def three : Nat → Option MFile
  | 0 => some (MergeEx.file (copy 0xff#8 ++ first))
  | 1 => some (MergeEx.file (copy 0#8))
  | 2 => some (MergeEx.file (copy 0#8))
  | _ => none
def threeMerger : Merger Nat := mergerOf [1, 2, 0]

theorem threeReadable : Readable three := by
  intro p f hf
  match p, hf with
  | 0, hf => cases hf; exact FuseEx.delivers (by decide)
  | 1, hf => cases hf; exact FuseEx.delivers (by decide)
  | 2, hf => cases hf; exact FuseEx.delivers (by decide)

theorem threeInputs0 {b : Build} {e : Entry Nat} (h : Inputs b MergeEx.tau threeMerger three e) (hp : e.path = 0) : Inputs b MergeEx.tau merger files e := by
  obtain ⟨_, f, gs, hf, h⟩ := h
  refine ⟨by simp [merger, mergerOf, hp], f, gs, ?_, h⟩
  rw [hp] at hf ⊢
  exact hf

theorem threeKeys0 (b : Build) : HasKeys b MergeEx.tau threeMerger three 0 [kCopy, kOther] := by
  refine ⟨by decide, fun k => ⟨fun hk => ?_, fun ⟨e, he, hp, h⟩ => ((keys0 b).2 k).2 ⟨e, threeInputs0 he hp, hp, h⟩⟩⟩
  obtain ⟨e, ⟨_, f, gs, hf, h⟩, hp, hke⟩ := ((keys0 b).2 k).1 hk
  refine ⟨e, ⟨by simp [threeMerger, mergerOf, hp], f, gs, ?_, h⟩, hp, hke⟩
  rw [hp] at hf ⊢
  exact hf

theorem threeOthers (b : Build) (e : Entry Nat) (h : Inputs b MergeEx.tau threeMerger three e) (hne : e.path ≠ 0) : e.key MergeEx.tau ∈ [kCopy] := by
  obtain ⟨p, g, t⟩ := e
  obtain ⟨hp, f, gs, hf, hgs, hg, he⟩ := h
  simp only at hne hf hg he
  have hf' : some f = some (MergeEx.file (copy 0#8)) := by
    match p, hf with
    | 1, hf => exact hf.symm
    | 2, hf => exact hf.symm
    | 0, _ => exact absurd rfl hne
  cases hf'
  obtain rfl := Merger.fileGroups_unique hgs groups1
  obtain ⟨fp, rest, ep, _, hd, _⟩ := he
  obtain rfl := List.mem_singleton.1 hg
  have e1 : copyPkt 0#8 = fp := (List.cons.inj ep).1
  subst e1
  have := (decCopy b 0#8).symm.trans hd
  simp only [Outcome.ret.injEq, Except.ok.injEq] at this
  subst this
  exact List.mem_singleton.2 rfl

example (b : Build) (out : List (List U8)) (h : Merges b MergeEx.tau threeMerger three (.ok out)) :
    ∃ es, IsMerge b MergeEx.tau threeMerger three out es ∧ AllFrom MergeEx.tau 0 [kCopy, kOther] es :=
  C138_master b MergeEx.tau threeMerger three threeReadable 0 (by decide) _ [kCopy] (threeKeys0 b) (threeOthers b) (by decide) out h

/-! Two files of one packet each: either copy may come out. -/
def tied : Bool → Option MFile := fun p => some (MergeEx.file (copy (if p then 0xff#8 else 0#8)))
def tiedMerger : Merger Bool := ⟨[true, false], MergeEx.dec, [], none, none, none⟩

theorem tiedGroups (x : U8) : FileGroups (MergeEx.file (copy x)) [gCopy x] := ⟨[copyPkt x], _, _, .step rfl (.done rfl), .step rfl (.done rfl)⟩
theorem tiedReadable : Readable tied := by
  intro p f hf
  cases hf
  exact FuseEx.delivers (by simp [copy])

theorem tiedKeys (b : Build) (p : Bool) : HasKeys b MergeEx.tau tiedMerger tied p [kCopy] := by
  refine ⟨by decide, fun k => ⟨fun hk => ?_, ?_⟩⟩
  · obtain rfl := List.mem_singleton.1 hk
    exact ⟨⟨p, gCopy (if p then 0xff#8 else 0#8), time 2⟩, ⟨by cases p <;> simp [tiedMerger], _, _, rfl, tiedGroups _, by simp, _, _, rfl, .inr (by rfl), decCopy b _, since2, before2,
      .inl rfl⟩, rfl, rfl⟩
  · rintro ⟨⟨p', g, t⟩, ⟨_, f, gs, hf, hgs, hg, he⟩, _, rfl⟩
    simp only at hf hg he
    cases hf
    obtain rfl := Merger.fileGroups_unique hgs (tiedGroups _)
    obtain ⟨fp, rest, ep, _, hd, _⟩ := he
    obtain rfl := List.mem_singleton.1 hg
    have e1 : copyPkt (if p' then 0xff#8 else 0#8) = fp := (List.cons.inj ep).1
    subst e1
    have := (decCopy b (if p' then 0xff#8 else 0#8)).symm.trans hd
    simp only [Outcome.ret.injEq, Except.ok.injEq] at this
    rw [← this]
    exact List.mem_singleton.2 rfl

theorem tiedOk (b : Build) (p : Bool) : ∃ f, tied p = some f ∧ ¬ FilePanics b tiedMerger.timeDecoder f := by
  refine ⟨_, rfl, ?_⟩
  rintro (⟨items, hc⟩ | ⟨gs, g, first, r, h1, h2, h3, _, h5⟩)
  · obtain ⟨ps, s, s', c1, _⟩ := tiedGroups (if p then 0xff#8 else 0#8)
    have := (c1.unique hc).2
    cases this
  · obtain rfl := Merger.fileGroups_unique h1 (tiedGroups _)
    obtain rfl := List.mem_singleton.1 h2
    have e1 : copyPkt (if p then 0xff#8 else 0#8) = first := (List.cons.inj h3).1
    subst e1
    have := (decCopy b (if p then 0xff#8 else 0#8)).symm.trans h5
    cases this

example (b : Build) : (∃ out es, Merges b MergeEx.tau tiedMerger tied (.ok out) ∧ IsMerge b MergeEx.tau tiedMerger tied out es ∧ AllFrom MergeEx.tau true [kCopy] es) ∧
    (∃ out es, Merges b MergeEx.tau tiedMerger tied (.ok out) ∧ IsMerge b MergeEx.tau tiedMerger tied out es ∧ AllFrom MergeEx.tau false [kCopy] es) :=
  C138_tie b MergeEx.tau tiedMerger tied tiedReadable true false (by decide) (by intro p; cases p <;> simp [tiedMerger]) _ _ (tiedKeys b true) (tiedKeys b false) rfl
    fun p _ => tiedOk b p

end WhichCopyEx
end Ccsds
