import Verif.Proofs.Merge
import Verif.Spec.Time
/-!
# C20–C25: `Merger`
-/
namespace Ccsds
open Spec Merger
variable {Path : Type} [DecidableEq Path]

/-- The input entries of a merger. -/
abbrev Inputs (b : Build) (τ : Epoch → Int) (m : Merger Path) (files : Path → Option MFile) (e : Entry Path) : Prop :=
  IsInput b τ m.timeDecoder m.fromEpoch m.toEpoch m.apids m.paths files e

/-- The value by which groups of equal time are ordered. -/
def rank (m : Merger Path) (a : U16) : Int := (m.order.get? a).getD (a.toNat : Int)

/-- Files deliver their content. -/
def Readable (files : Path → Option MFile) : Prop := ∀ p f, files p = some f → f.reader.Delivers f.content

/-- The pointer of an entry. -/
def entryPtr (m : Merger Path) (e : Entry Path) : Ptr Path :=
  match e.group.packets with
  | [] => ⟨e.path, 0, 0, e.time, 0, 0, 0⟩
  | first :: _ => ptrOf m e.path e.group first e.time

theorem entries_of_ptrs {b : Build} {τ : Epoch → Int} {m : Merger Path} {files : Path → Option MFile} (l : List (Ptr Path))
    (h : ∀ q ∈ l, PtrGood b τ m files q) : ∃ es : List (Entry Path), l = es.map (entryPtr m) ∧ ∀ e ∈ es, Inputs b τ m files e := by
  induction l with
  | nil => exact ⟨[], rfl, by simp⟩
  | cons q l ih =>
    obtain ⟨es, h1, h2⟩ := ih (fun x hx => h x (by simp [hx]))
    obtain ⟨hp, f, gs, g, first, rest, a1, a2, a3, a4, a5, a6⟩ := h q (by simp)
    refine ⟨⟨q.path, g, q.time⟩ :: es, ?_, ?_⟩
    · rw [List.map_cons, h1]
      congr 1
      simp only [entryPtr, a4]
      exact a6
    · intro e he
      rcases List.mem_cons.1 he with rfl | he
      · exact ⟨hp, f, gs, a1, a2, a3, a5⟩
      · exact h2 e he

theorem entryPtr_fields {b : Build} {τ : Epoch → Int} {m : Merger Path} {files : Path → Option MFile} {e : Entry Path} (h : Inputs b τ m files e) :
    (entryPtr m e).time = e.time ∧ (entryPtr m e).path = e.path ∧ (entryPtr m e).order = rank m e.apid ∧
      ∃ first rest, e.group.packets = first :: rest ∧ entryPtr m e = ptrOf m e.path e.group first e.time ∧ e.apid = first.header.apid := by
  obtain ⟨_, f, gs, _, _, _, first, rest, hp, _⟩ := h
  have he : entryPtr m e = ptrOf m e.path e.group first e.time := by simp [entryPtr, hp]
  refine ⟨by rw [he]; rfl, by rw [he]; rfl, ?_, first, rest, hp, he, by simp [Entry.apid, hp]⟩
  rw [he]
  simp [ptrOf, rank, Entry.apid, hp]

theorem entryPtr_key {b : Build} {τ : Epoch → Int} {m : Merger Path} {files : Path → Option MFile} {x y : Entry Path}
    (hx : Inputs b τ m files x) (hy : Inputs b τ m files y) : (entryPtr m x).key τ = (entryPtr m y).key τ ↔ x.key τ = y.key τ := by
  obtain ⟨_, _, _, f, r, h1, h2, _⟩ := entryPtr_fields hx
  obtain ⟨_, _, _, f', r', h1', h2', _⟩ := entryPtr_fields hy
  rw [h2, h2']
  simp only [Ptr.key, ptrOf, Entry.key, h1, h1', List.head?_cons, Option.map_some, Prod.mk.injEq, Option.some.injEq]
  constructor
  · rintro ⟨a, c, d⟩; exact ⟨⟨a, d⟩, c⟩
  · rintro ⟨⟨a, d⟩, c⟩; exact ⟨a, c, d⟩

theorem emit_entries {b : Build} {τ : Epoch → Int} {m : Merger Path} {files : Path → Option MFile} (hfiles : Readable files)
    (es : List (Entry Path)) (h : ∀ e ∈ es, Inputs b τ m files e) : ∀ out, emit files (es.map (entryPtr m)) out = .ok (out ++ es.map Entry.bytes) := by
  induction es with
  | nil => intro out; simp [emit]
  | cons e es ih =>
    intro out
    have hin := h e (by simp)
    obtain ⟨_, h2, _, first, rest, hp, he, _⟩ := entryPtr_fields hin
    obtain ⟨_, f, gs, a1, a2, a3, a4⟩ := hin
    obtain ⟨b1, b2⟩ := pointed_bytes (hfiles _ f a1) a2 a3 hp
    rw [List.map_cons, emit, h2, a1]
    have e1 : (entryPtr m e).offset = first.offset := by rw [he]; rfl
    have e2 : (entryPtr m e).size = (e.group.packets.map fun p => PrimaryHeader.LEN + p.header.lenMinus1.toNat + 1).sum := by rw [he]; rfl
    simp only [e1, e2, b1]
    rw [if_neg (by omega), ih (fun x hx => h x (by simp [hx]))]
    rw [List.map_cons, List.append_assoc]
    rfl

/-- What `entries` must be for the buffers `out` to be a correct merge. -/
structure IsMerge (b : Build) (τ : Epoch → Int) (m : Merger Path) (files : Path → Option MFile) (out : List (List U8)) (entries : List (Entry Path)) : Prop where
  bytes : out = entries.map Entry.bytes
  inputs : ∀ e ∈ entries, Inputs b τ m files e
  sorted : entries.Pairwise fun x y => τ x.time < τ y.time ∨ (τ x.time = τ y.time ∧ rank m x.apid ≤ rank m y.apid)
  distinct : (entries.map (Entry.key τ)).Nodup
  complete : ∀ e, Inputs b τ m files e → e.key τ ∈ entries.map (Entry.key τ)

theorem nodup_transfer {α β γ : Type} (f : α → β) (g : α → γ) (l : List α) (h : (l.map f).Nodup)
    (hfg : ∀ x ∈ l, ∀ y ∈ l, g x = g y → f x = f y) : (l.map g).Nodup := by
  induction l with
  | nil => simp
  | cons a l ih =>
    rw [List.map_cons, List.nodup_cons] at h ⊢
    refine ⟨?_, ih h.2 (fun x hx y hy => hfg x (by simp [hx]) y (by simp [hy]))⟩
    intro hm
    obtain ⟨x, hx, he⟩ := List.mem_map.1 hm
    exact h.1 (List.mem_map.2 ⟨x, hx, hfg x (by simp [hx]) a (by simp) he⟩)

theorem index_merge {b : Build} {τ : Epoch → Int} {m : Merger Path} {files : Path → Option MFile} (hfiles : Readable files)
    {visit : List Path} {idx idx' : List (Ptr Path)} (hv : visit.Perm (Merger.distinct m.paths))
    (hi : Index b τ m files visit [] (some idx)) (hp : idx'.Perm idx) :
    ∃ entries, idx'.mergeSort (Ptr.le τ) = entries.map (entryPtr m) ∧ IsMerge b τ m files (entries.map Entry.bytes) entries := by
  obtain ⟨h1, h2, _, h4⟩ := index_spec hfiles hi (fun p hp' => (mem_distinct _ _).1 (hv.mem_iff.1 hp')) (by simp) (by simp)
  have hperm : (idx'.mergeSort (Ptr.le τ)).Perm idx := (List.mergeSort_perm _ _).trans hp
  obtain ⟨entries, e1, e2⟩ := entries_of_ptrs (idx'.mergeSort (Ptr.le τ)) (fun q hq => h2 q (hperm.mem_iff.1 hq))
  have hsort := List.pairwise_mergeSort (Ptr.le_trans τ) (Ptr.le_total τ) idx'
  have hnd : ((idx'.mergeSort (Ptr.le τ)).map (Ptr.key τ)).Nodup := ((hperm.map _).nodup_iff).2 h1
  refine ⟨entries, e1, rfl, e2, ?_, ?_, ?_⟩
  · rw [e1, List.pairwise_map] at hsort
    refine hsort.imp_of_mem ?_
    intro x y hx hy hle
    obtain ⟨t1, _, o1, _⟩ := entryPtr_fields (e2 x hx)
    obtain ⟨t2, _, o2, _⟩ := entryPtr_fields (e2 y hy)
    simp only [Ptr.le, t1, t2, o1, o2, Bool.or_eq_true, decide_eq_true_eq, Bool.and_eq_true, beq_iff_eq] at hle
    exact hle
  · rw [e1, List.map_map] at hnd
    refine nodup_transfer _ _ _ hnd ?_
    intro x hx y hy h
    exact (entryPtr_key (e2 x hx) (e2 y hy)).2 h
  · intro e he
    have hin := he
    obtain ⟨p1, f, gs, p2, p3, p4, p5⟩ := he
    obtain ⟨first, rest, g1, g2⟩ := pointer_eligible (path := e.path) p5
    have hk := h4 e.path (hv.mem_iff.2 ((mem_distinct _ _).2 p1)) f gs p2 p3 e.group p4 _ g2
    rw [← (hperm.map _).mem_iff, e1, List.map_map] at hk
    obtain ⟨x, hx, hxe⟩ := List.mem_map.1 hk
    refine List.mem_map.2 ⟨x, hx, ?_⟩
    apply (entryPtr_key (e2 x hx) hin).1
    rw [show entryPtr m e = ptrOf m e.path e.group first e.time by simp [entryPtr, g1]]
    exact hxe

/-! ## C21  Deduplicated and complete; the full description of a successful merge -/

/-- Every successful `merge`, whatever the iteration orders: the buffers written are the bytes of eligible groups of the inputs (C22), sorted by
time and then by the APID's order value (C20), no two with the same key, and every eligible group's key is there (C21). -/
theorem C21_merge (b : Build) (τ : Epoch → Int) (m : Merger Path) (files : Path → Option MFile) (hfiles : Readable files)
    (out : List (List U8)) (h : Merges b τ m files (.ok out)) : ∃ entries, IsMerge b τ m files out entries := by
  generalize hr : MResult.ok out = r at h
  cases h with
  | openFails => cases hr
  | panicked => cases hr
  | finished _ hv hi hp =>
    obtain ⟨entries, e1, e2⟩ := index_merge hfiles hv hi hp
    rw [e1, emit_entries hfiles entries e2.inputs, List.nil_append] at hr
    cases hr
    exact ⟨entries, e2⟩

/-- The set of keys written does not depend on the order of the inputs, on their repetition, or on iteration orders. -/
theorem C21_keys_invariant (b : Build) (τ : Epoch → Int) (m m' : Merger Path) (files : Path → Option MFile)
    (hp : ∀ p, p ∈ m.paths ↔ p ∈ m'.paths) (ho : m'.timeDecoder = m.timeDecoder ∧ m'.from? = m.from? ∧ m'.to? = m.to? ∧ m'.apids? = m.apids?)
    (out out' : List (List U8)) (es es' : List (Entry Path)) (h : IsMerge b τ m files out es) (h' : IsMerge b τ m' files out' es') :
    (es.map (Entry.key τ)).Perm (es'.map (Entry.key τ)) := by
  have hin : ∀ e, Inputs b τ m files e ↔ Inputs b τ m' files e := by
    intro e
    unfold Inputs IsInput fromEpoch toEpoch apids
    rw [ho.1, ho.2.1, ho.2.2.1, ho.2.2.2, hp]
  rw [List.perm_ext_iff_of_nodup h.distinct h'.distinct]
  intro k
  constructor
  · intro hk
    obtain ⟨e, he, rfl⟩ := List.mem_map.1 hk
    exact h'.complete e ((hin e).1 (h.inputs e he))
  · intro hk
    obtain ⟨e, he, rfl⟩ := List.mem_map.1 hk
    exact h.complete e ((hin e).2 (h'.inputs e he))

/-! ## C20, C22 -/

theorem C20_sorted (b : Build) (τ : Epoch → Int) (m : Merger Path) (files : Path → Option MFile) (hfiles : Readable files)
    (out : List (List U8)) (h : Merges b τ m files (.ok out)) :
    ∃ entries : List (Entry Path), out = entries.map Entry.bytes ∧ (∀ e ∈ entries, Inputs b τ m files e) ∧
      entries.Pairwise fun x y => τ x.time ≤ τ y.time ∧ (τ x.time = τ y.time → rank m x.apid ≤ rank m y.apid) := by
  obtain ⟨es, h⟩ := C21_merge b τ m files hfiles out h
  exact ⟨es, h.bytes, h.inputs, h.sorted.imp (by intro x y h; omega)⟩

/-- Every buffer written is the concatenation of the packets of one group of one input file, a contiguous part of that file. -/
theorem C22_verbatim (b : Build) (τ : Epoch → Int) (m : Merger Path) (files : Path → Option MFile) (hfiles : Readable files)
    (out : List (List U8)) (h : Merges b τ m files (.ok out)) :
    ∀ w ∈ out, ∃ p ∈ m.paths, ∃ f gs g, files p = some f ∧ FileGroups f gs ∧ g ∈ gs ∧ w = g.packets.flatMap Packet.data ∧
      ∃ pre post, f.content = pre ++ w ++ post := by
  obtain ⟨es, h⟩ := C21_merge b τ m files hfiles out h
  intro w hw
  rw [h.bytes] at hw
  obtain ⟨e, he, rfl⟩ := List.mem_map.1 hw
  have hin := h.inputs e he
  obtain ⟨_, _, _, first, rest, hpk, _⟩ := entryPtr_fields hin
  obtain ⟨p1, f, gs, p2, p3, p4, p5⟩ := hin
  obtain ⟨b1, b2⟩ := pointed_bytes (hfiles _ f p2) p3 p4 hpk
  refine ⟨e.path, p1, f, gs, e.group, p2, p3, p4, rfl, f.content.take first.offset,
    (f.content.drop first.offset).drop (e.group.packets.map fun p => PrimaryHeader.LEN + p.header.lenMinus1.toNat + 1).sum, ?_⟩
  show f.content = f.content.take first.offset ++ wire e.group.packets ++ _
  rw [← b1, List.append_assoc, List.take_append_drop, List.take_append_drop]

/-! ## C21  Errors, panics, and that there is a result -/

/-- `merge` fails only when an input cannot be opened, before anything is written. -/
theorem C21_error (b : Build) (τ : Epoch → Int) (m : Merger Path) (files : Path → Option MFile) (hfiles : Readable files) (w : List (List U8))
    (h : Merges b τ m files (.error w)) : w = [] ∧ ∃ p ∈ m.paths, files p = none := by
  generalize hr : MResult.error w = r at h
  cases h with
  | openFails hp hf => cases hr; exact ⟨rfl, _, hp, hf⟩
  | panicked => cases hr
  | finished _ hv hi hp =>
    obtain ⟨entries, e1, e2⟩ := index_merge hfiles hv hi hp
    rw [e1, emit_entries hfiles entries e2.inputs] at hr
    cases hr

/-- Decoding the packets of the file, or the time of the first packet of one of its groups flagged FIRST or UNSEGMENTED, panics. -/
def FilePanics (b : Build) (d : TimecodeDecoder) (f : MFile) : Prop :=
  (∃ items, Collects PacketDecoder.next (PacketDecoder.new f.reader) items none) ∨
  ∃ gs g first rest, FileGroups f gs ∧ g ∈ gs ∧ g.packets = first :: rest ∧
    (first.header.sequenceFlags.toNat = 1 ∨ first.header.sequenceFlags.toNat = 3) ∧ d.decode b first = .panic

theorem pointer_panic {b : Build} {τ : Epoch → Int} {m : Merger Path} {path : Path} {g : PacketGroup} :
    m.pointer b τ path g = .panic ↔ ∃ first rest, g.packets = first :: rest ∧
      (first.header.sequenceFlags.toNat = 1 ∨ first.header.sequenceFlags.toNat = 3) ∧ m.timeDecoder.decode b first = .panic := by
  unfold pointer
  cases hg : g.packets with
  | nil => simp
  | cons first rest =>
    simp only [List.cons.injEq]
    by_cases hfl : (!(first.isFirst || first.isStandalone)) = true
    · rw [if_pos hfl]
      constructor
      · intro h; cases h
      · rintro ⟨f', r', ⟨rfl, rfl⟩, hf, _⟩
        rw [(flag_iff first).2 hf] at hfl
        cases hfl
    · rw [if_neg hfl]
      have hfl' := (flag_iff first).1 (by simpa using hfl)
      cases hd : m.timeDecoder.decode b first with
      | panic => exact ⟨fun _ => ⟨first, rest, ⟨rfl, rfl⟩, hfl', hd⟩, fun _ => rfl⟩
      | ret r =>
        constructor
        · intro h
          exfalso
          simp only [Outcome.ret_bind] at h
          cases r with
          | error => cases h
          | ok epoch =>
            simp only at h
            split at h
            · cases h
            · split at h
              · cases h
              · split at h <;> cases h
        · rintro ⟨f', r', ⟨rfl, rfl⟩, _, hp⟩
          rw [hd] at hp; cases hp

theorem pointersLoop_panic {b : Build} {τ : Epoch → Int} {m : Merger Path} {path : Path} (gs : List PacketGroup) :
    ∀ acc, m.pointersLoop b τ path gs acc = .panic ↔ ∃ g ∈ gs, m.pointer b τ path g = .panic := by
  induction gs with
  | nil => intro acc; simp [pointersLoop]
  | cons g gs ih =>
    intro acc
    rw [pointersLoop]
    cases hp : m.pointer b τ path g with
    | panic => exact ⟨fun _ => ⟨g, by simp, hp⟩, fun _ => rfl⟩
    | ret o =>
      cases o with
      | none =>
        simp only [Outcome.ret_bind]
        rw [ih]
        constructor
        · rintro ⟨x, hx, h⟩; exact ⟨x, by simp [hx], h⟩
        · rintro ⟨x, hx, h⟩
          rcases List.mem_cons.1 hx with rfl | hx
          · rw [hp] at h; cases h
          · exact ⟨x, hx, h⟩
      | some q =>
        simp only [Outcome.ret_bind]
        rw [ih]
        constructor
        · rintro ⟨x, hx, h⟩; exact ⟨x, by simp [hx], h⟩
        · rintro ⟨x, hx, h⟩
          rcases List.mem_cons.1 hx with rfl | hx
          · rw [hp] at h; cases h
          · exact ⟨x, hx, h⟩

theorem pointers_total {b : Build} {τ : Epoch → Int} {m : Merger Path} {path : Path} {f : MFile} (hd : f.reader.Delivers f.content) :
    (¬ FilePanics b m.timeDecoder f → ∃ r, m.Pointers b τ path f (some r)) ∧ (m.Pointers b τ path f none → FilePanics b m.timeDecoder f) := by
  constructor
  · intro hnp
    obtain ⟨ps, rest, e, h1, _⟩ := C04_cut f.content f.reader hd
    obtain ⟨gs, s, h2, _⟩ := C11_partition ps
    cases e with
    | none => exact absurd (.inl ⟨_, h1⟩) hnp
    | some s1 =>
      cases hp : m.pointersLoop b τ path gs [] with
      | panic =>
        exfalso
        obtain ⟨g, hg, hpp⟩ := (pointersLoop_panic gs []).1 hp
        obtain ⟨first, r, a1, a2, a3⟩ := pointer_panic.1 hpp
        exact hnp (.inr ⟨gs, g, first, r, ⟨ps, s1, s, h1, h2⟩, hg, a1, a2, a3⟩)
      | ret r =>
        refine ⟨r, ps.map .ok, some s1, h1, gs.map .ok, s, by rw [oks_map_ok]; exact h2, ?_⟩
        rw [oks_map_ok, hp]
  · rintro ⟨items, e, h1, gitems, s, h2, h3⟩
    obtain ⟨ps, rest, rfl, _, _, _⟩ := collects_items hd h1
    rw [oks_map_ok] at h2
    obtain ⟨gs, rfl, _, _, _⟩ := collects_groups h2
    rw [oks_map_ok] at h3
    cases e with
    | none => exact .inl ⟨_, h1⟩
    | some s1 =>
      right
      cases hp : m.pointersLoop b τ path gs [] with
      | ret r => rw [hp] at h3; simp at h3
      | panic =>
        obtain ⟨g, hg, hpp⟩ := (pointersLoop_panic gs []).1 hp
        obtain ⟨first, r, a1, a2, a3⟩ := pointer_panic.1 hpp
        exact ⟨gs, g, first, r, ⟨ps, s1, s, h1, h2⟩, hg, a1, a2, a3⟩

theorem index_total {b : Build} {τ : Epoch → Int} {m : Merger Path} {files : Path → Option MFile} (hfiles : Readable files)
    (visit : List Path) (hopen : ∀ p ∈ visit, ∃ f, files p = some f ∧ ¬ FilePanics b m.timeDecoder f) :
    ∀ idx, ∃ r, Index b τ m files visit idx (some r) := by
  induction visit with
  | nil => intro idx; exact ⟨idx, .done⟩
  | cons p ps ih =>
    intro idx
    obtain ⟨f, hf, hn⟩ := hopen p (by simp)
    obtain ⟨new, hnew⟩ := (pointers_total (τ := τ) (path := p) (hfiles p f hf)).1 hn
    obtain ⟨r, hr⟩ := ih (fun x hx => hopen x (by simp [hx])) (Ptr.union τ idx new)
    exact ⟨r, .step hf hnew (List.Perm.refl _) (List.Perm.refl _) hr⟩

/-- `merge` panics only when reading one of the files does. -/
theorem C21_panic (b : Build) (τ : Epoch → Int) (m : Merger Path) (files : Path → Option MFile) (hfiles : Readable files)
    (h : Merges b τ m files .panic) : ∃ p ∈ m.paths, ∃ f, files p = some f ∧ FilePanics b m.timeDecoder f := by
  generalize hr : MResult.panic = r at h
  cases h with
  | openFails => cases hr
  | finished _ hv hi hp =>
    obtain ⟨entries, e1, e2⟩ := index_merge hfiles hv hi hp
    rw [e1, emit_entries hfiles entries e2.inputs] at hr
    cases hr
  | @panicked visit _ hv hi =>
    have key : ∀ (visit : List Path) idx r, Index b τ m files visit idx r → r = none → ∃ p ∈ visit, ∃ f, files p = some f ∧ FilePanics b m.timeDecoder f := by
      intro visit idx r h
      induction h with
      | done => intro h; cases h
      | panicked hf hp => intro _; exact ⟨_, by simp, _, hf, (pointers_total (hfiles _ _ hf)).2 hp⟩
      | step _ _ _ _ _ ih =>
        intro h
        obtain ⟨p, hp, h⟩ := ih h
        exact ⟨p, by simp [hp], h⟩
    obtain ⟨p, hp, h⟩ := key visit [] none hi rfl
    exact ⟨p, (mem_distinct _ _).1 (hv.mem_iff.1 hp), h⟩

/-- When all inputs open and none of them makes the decoders panic, `merge` succeeds: some result exists, and every result is a success. -/
theorem C21_total (b : Build) (τ : Epoch → Int) (m : Merger Path) (files : Path → Option MFile) (hfiles : Readable files)
    (hopen : ∀ p ∈ m.paths, ∃ f, files p = some f ∧ ¬ FilePanics b m.timeDecoder f) :
    (∃ out, Merges b τ m files (.ok out)) ∧ ∀ r, Merges b τ m files r → ∃ out, r = .ok out := by
  constructor
  · obtain ⟨idx, hi⟩ := index_total (τ := τ) hfiles (Merger.distinct m.paths) (fun p hp => hopen p ((mem_distinct _ _).1 hp)) []
    obtain ⟨entries, e1, e2⟩ := index_merge hfiles (List.Perm.refl _) hi (List.Perm.refl _)
    have := Merges.finished (m := m) (by
      intro p hp hn
      obtain ⟨f, hf, _⟩ := hopen p hp
      rw [hf] at hn; cases hn) (List.Perm.refl _) hi (List.Perm.refl _)
    rw [e1, emit_entries hfiles entries e2.inputs] at this
    exact ⟨_, this⟩
  · intro r hr
    cases r with
    | ok out => exact ⟨out, rfl⟩
    | error w =>
      obtain ⟨_, p, hp, hn⟩ := C21_error b τ m files hfiles w hr
      obtain ⟨f, hf, _⟩ := hopen p hp
      rw [hf] at hn; cases hn
    | panic =>
      obtain ⟨p, hp, f, hf, hpan⟩ := C21_panic b τ m files hfiles hr
      obtain ⟨f', hf', hn⟩ := hopen p hp
      rw [hf] at hf'
      cases hf'
      exact absurd hpan hn

/-! ## C25  Determinism -/

/-- Full statement. -/
def C25_full : Prop :=
  ∀ (b : Build) (τ : Epoch → Int) (m : Merger Nat) (files : Nat → Option MFile) (out out' : List (List U8)), Readable files →
    Merges b τ m files (.ok out) → Merges b τ m files (.ok out') → out = out'

/-- It holds when groups with equal keys are copies of each other and different keys differ in time or order value. -/
theorem C25_partial (b : Build) (τ : Epoch → Int) (m : Merger Path) (files : Path → Option MFile) (hfiles : Readable files)
    (hcopy : ∀ x y, Inputs b τ m files x → Inputs b τ m files y → x.key τ = y.key τ → x.bytes = y.bytes)
    (hsep : ∀ x y, Inputs b τ m files x → Inputs b τ m files y → τ x.time = τ y.time → rank m x.apid = rank m y.apid → x.key τ = y.key τ)
    (out out' : List (List U8)) (h : Merges b τ m files (.ok out)) (h' : Merges b τ m files (.ok out')) : out = out' := by
  obtain ⟨es, hm⟩ := C21_merge b τ m files hfiles out h
  obtain ⟨es', hm'⟩ := C21_merge b τ m files hfiles out' h'
  have hperm := C21_keys_invariant b τ m m files (fun _ => Iff.rfl) ⟨rfl, rfl, rfl, rfl⟩ out out' es es' hm hm'
  -- order on keys
  let krank : Option (U16 × U16) × Int → Int := fun k => match k.1 with | none => rank m 0 | some a => rank m a.1
  let R : Option (U16 × U16) × Int → Option (U16 × U16) × Int → Prop := fun j k => j.2 < k.2 ∨ (j.2 = k.2 ∧ krank j ≤ krank k)
  have hkr : ∀ e, Inputs b τ m files e → krank (e.key τ) = rank m e.apid := by
    intro e he
    obtain ⟨_, _, _, first, rest, hpk, _, ha⟩ := entryPtr_fields he
    show (match (e.key τ).1 with | none => rank m 0 | some a => rank m a.1) = _
    rw [ha]
    simp only [Entry.key, hpk, List.head?_cons, Option.map_some]
  have hs : ∀ (es : List (Entry Path)) out, IsMerge b τ m files out es → (es.map (Entry.key τ)).Pairwise R := by
    intro es out hm
    rw [List.pairwise_map]
    refine hm.sorted.imp_of_mem ?_
    intro x y hx hy hxy
    show τ x.time < τ y.time ∨ (τ x.time = τ y.time ∧ krank (x.key τ) ≤ krank (y.key τ))
    rw [hkr x (hm.inputs x hx), hkr y (hm.inputs y hy)]
    exact hxy
  have heq : es.map (Entry.key τ) = es'.map (Entry.key τ) := by
    refine List.Perm.eq_of_pairwise (le := R) ?_ (hs es out hm) (hs es' out' hm') hperm
    intro j k hj hk h1 h2
    obtain ⟨x, hx, rfl⟩ := List.mem_map.1 hj
    obtain ⟨y, hy, rfl⟩ := List.mem_map.1 hk
    have ix := hm.inputs x hx
    have iy := hm'.inputs y hy
    have t1 : τ x.time < τ y.time ∨ (τ x.time = τ y.time ∧ krank (x.key τ) ≤ krank (y.key τ)) := h1
    have t2 : τ y.time < τ x.time ∨ (τ y.time = τ x.time ∧ krank (y.key τ) ≤ krank (x.key τ)) := h2
    rw [hkr x ix, hkr y iy] at t1 t2
    exact hsep x y ix iy (by omega) (by omega)
  rw [hm.bytes, hm'.bytes]
  have hlen : es.length = es'.length := by simpa using congrArg List.length heq
  apply List.ext_getElem (by simpa using hlen)
  intro i h1 h2
  rw [List.getElem_map, List.getElem_map]
  have h1' : i < es.length := by simpa using h1
  have h2' : i < es'.length := by simpa using h2
  apply hcopy _ _ (hm.inputs _ (List.getElem_mem h1')) (hm'.inputs _ (List.getElem_mem h2'))
  have := congrArg (·[i]?) heq
  simpa [List.getElem?_eq_getElem h1', List.getElem?_eq_getElem h2'] using this

/-- How far the order is left open: with the groups that one successful `merge` wrote, every arrangement of them that is sorted by time and
order value is a possible output as well. So the order among groups that agree in both is arbitrary, and nothing else is. -/
theorem C25_every_order (b : Build) (τ : Epoch → Int) (m : Merger Path) (files : Path → Option MFile) (hfiles : Readable files)
    (out : List (List U8)) (h : Merges b τ m files (.ok out)) :
    ∃ entries, IsMerge b τ m files out entries ∧ ∀ es : List (Entry Path), es.Perm entries →
      es.Pairwise (fun x y => τ x.time < τ y.time ∨ (τ x.time = τ y.time ∧ rank m x.apid ≤ rank m y.apid)) →
      Merges b τ m files (.ok (es.map Entry.bytes)) := by
  generalize hr : MResult.ok out = r at h
  cases h with
  | openFails => cases hr
  | panicked => cases hr
  | finished ho hv hi hp =>
    obtain ⟨entries, e1, e2⟩ := index_merge hfiles hv hi hp
    rw [e1, emit_entries hfiles entries e2.inputs, List.nil_append] at hr
    cases hr
    refine ⟨entries, e2, ?_⟩
    intro es hperm hs
    have hin : ∀ e ∈ es, Inputs b τ m files e := fun e he => e2.inputs e (hperm.mem_iff.1 he)
    have hsorted : (es.map (entryPtr m)).Pairwise (fun p q => Ptr.le τ p q = true) := by
      rw [List.pairwise_map]
      refine hs.imp_of_mem ?_
      intro x y hx hy hle
      obtain ⟨t1, _, o1, _⟩ := entryPtr_fields (hin x hx)
      obtain ⟨t2, _, o2, _⟩ := entryPtr_fields (hin y hy)
      simp only [Ptr.le, t1, t2, o1, o2, Bool.or_eq_true, decide_eq_true_eq, Bool.and_eq_true, beq_iff_eq]
      exact hle
    have hp' := (hperm.map (entryPtr m)).trans ((e1 ▸ List.mergeSort_perm _ _ : (entries.map (entryPtr m)).Perm _).trans hp)
    have := Merges.finished ho hv hi hp'
    rw [List.mergeSort_of_pairwise hsorted, emit_entries hfiles es hin, List.nil_append] at this
    exact this

/-- In particular, when a successful `merge` writes two groups next to each other that agree in time and order value, the output with
the two exchanged is possible too. -/
theorem C25_swap (b : Build) (τ : Epoch → Int) (m : Merger Path) (files : Path → Option MFile) (hfiles : Readable files)
    (out : List (List U8)) (h : Merges b τ m files (.ok out)) :
    ∃ entries, IsMerge b τ m files out entries ∧ ∀ (l : List (Entry Path)) (x y : Entry Path) (r : List (Entry Path)),
      entries = l ++ x :: y :: r → τ x.time = τ y.time → rank m x.apid = rank m y.apid →
      Merges b τ m files (.ok (l.map Entry.bytes ++ y.bytes :: x.bytes :: r.map Entry.bytes)) := by
  obtain ⟨entries, h1, h2⟩ := C25_every_order b τ m files hfiles out h
  refine ⟨entries, h1, ?_⟩
  intro l x y r he ht hk
  have hs := h1.sorted
  rw [he, List.pairwise_append] at hs
  obtain ⟨s1, s2, s3⟩ := hs
  rw [List.pairwise_cons, List.pairwise_cons] at s2
  obtain ⟨s4, s5, s6⟩ := s2
  have := h2 (l ++ y :: x :: r) (he ▸ List.Perm.append_left l (List.Perm.swap x y r)) (by
    rw [List.pairwise_append, List.pairwise_cons, List.pairwise_cons]
    refine ⟨s1, ⟨?_, ?_, s6⟩, ?_⟩
    · intro z hz
      rcases List.mem_cons.1 hz with rfl | hz
      · right; omega
      · exact s5 z hz
    · intro z hz; exact s4 z (by simp [hz])
    · intro z hz w hw
      exact s3 z hz w (by simp only [List.mem_cons] at hw ⊢; rcases hw with h | h | h <;> simp [h]))
  simpa using this

/-! ## C23  `with_apid_order` -/

/-- In the order `ord`, APID `a` belongs before `c`: it is listed, and `c` is not, or only later. -/
def Before (ord : List U16) (a c : U16) : Prop := ∃ i : Nat, ord[i]? = some a ∧ ∀ j : Nat, ord[j]? = some c → i < j

/-- Full statement (the documentation of `with_apid_order`): among groups of equal time, no group is written before one whose APID belongs
before its own. -/
def C23_full : Prop :=
  ∀ (b : Build) (τ : Epoch → Int) (paths : List Nat) (d : TimecodeDecoder) (ord : List U16) (files : Nat → Option MFile) (out : List (List U8)),
    Readable files → ord.Nodup → Merges b τ ((Merger.new paths d).withApidOrder ord) files (.ok out) →
    ∃ entries : List (Entry Nat), out = entries.map Entry.bytes ∧ (∀ e ∈ entries, Inputs b τ ((Merger.new paths d).withApidOrder ord) files e) ∧
      entries.Pairwise fun x y => τ x.time = τ y.time → ¬ Before ord y.apid x.apid

theorem orderLoop_get (l : List U16) : ∀ (m : HMap U16 Int) (i : Nat) (a : U16), l.Nodup →
    (orderLoop m i l).get? a = match l.findIdx? (· == a) with | some k => some (4096 - ((i + k : Nat) : Int)) | none => m.get? a := by
  induction l with
  | nil => intro m i a _; rfl
  | cons x l ih =>
    intro m i a hn
    rw [List.nodup_cons] at hn
    rw [orderLoop, ih _ _ _ hn.2, List.findIdx?_cons]
    by_cases hx : x = a
    · subst hx
      have : l.findIdx? (· == x) = none := by
        rw [List.findIdx?_eq_none_iff]
        intro y hy
        simp only [beq_eq_false_iff_ne, ne_eq]
        intro h
        subst h
        exact hn.1 hy
      rw [this]
      simp [HMap.get?_insert]
    · have hb : (x == a) = false := by simpa using hx
      rw [hb]
      cases hf : l.findIdx? (· == a) with
      | none => simp [HMap.get?_insert, hx]
      | some k =>
        simp only [Option.map_some, Bool.false_eq_true, if_false, Option.some.injEq]
        omega

theorem rank_order (paths : List Path) (d : TimecodeDecoder) (ord : List U16) (hn : ord.Nodup) (a : U16) :
    (∀ i : Nat, ord[i]? = some a → rank ((Merger.new paths d).withApidOrder ord) a = 4096 - (i : Int)) ∧
    (a ∉ ord → rank ((Merger.new paths d).withApidOrder ord) a = (a.toNat : Int)) := by
  have e : rank ((Merger.new paths d).withApidOrder ord) a =
      ((match ord.findIdx? (· == a) with | some k => some (4096 - ((0 + k : Nat) : Int)) | none => none : Option Int).getD (a.toNat : Int)) := by
    show (((orderLoop [] 0 ord).get? a).getD (a.toNat : Int)) = _
    rw [orderLoop_get ord [] 0 a hn]
    rfl
  rw [e]
  constructor
  · intro i hi
    have : ord.findIdx? (· == a) = some i := by
      rw [List.findIdx?_eq_some_iff_getElem]
      obtain ⟨hlt, hia⟩ := List.getElem?_eq_some_iff.1 hi
      refine ⟨hlt, by simp [hia], ?_⟩
      intro j hj
      simp only [beq_iff_eq]
      intro h
      have := (List.getElem_inj (h₀ := by omega) (h₁ := hlt) hn).1 (h.trans hia.symm)
      omega
    rw [this]
    simp
  · intro ha
    have : ord.findIdx? (· == a) = none := by
      rw [List.findIdx?_eq_none_iff]
      intro y hy
      simp only [beq_eq_false_iff_ne, ne_eq]
      intro h
      subst h
      exact ha hy
    rw [this]
    rfl

theorem input_apid_lt {b : Build} {τ : Epoch → Int} {m : Merger Path} {files : Path → Option MFile} (hfiles : Readable files) {e : Entry Path}
    (h : Inputs b τ m files e) : e.apid.toNat < 2048 := by
  obtain ⟨_, _, _, first, rest, hpk, _, ha⟩ := entryPtr_fields h
  obtain ⟨_, f, gs, h1, ⟨ps, s, s', c1, c2⟩, h3, _⟩ := h
  obtain ⟨ps', tail, e1, _, hw, _⟩ := collects_items (hfiles _ f h1) c1
  have hinj : ∀ {α : Type} (x y : List α), x.map (Except.ok (ε := Error)) = y.map Except.ok → x = y := by
    intro α x y hxy
    exact (List.map_inj_right (fun x y h => by cases h; rfl)).1 hxy
  have := hinj _ _ e1
  subst this
  obtain ⟨gs', e2, hflat, _, _⟩ := collects_groups c2
  have := hinj _ _ e2
  subst this
  have hm : first ∈ ps := by
    rw [← hflat]
    exact List.mem_flatMap.2 ⟨e.group, h3, by rw [hpk]; simp⟩
  obtain ⟨w1, w2⟩ := hw first hm
  have := packetLen_ge first.data
  obtain ⟨hd, d1, _, _, _, d2, _⟩ := C01_fields first.data (by omega)
  rw [w2] at d1
  cases d1
  rw [ha, d2]
  exact field_lt _ _ _

/-- What the code does instead: for equal times the unlisted APIDs come first, ascending, then the listed ones in the reverse of the given
order. -/
theorem C23_partial (b : Build) (τ : Epoch → Int) (paths : List Path) (d : TimecodeDecoder) (ord : List U16) (files : Path → Option MFile)
    (hfiles : Readable files) (out : List (List U8)) (hn : ord.Nodup) (hl : ord.length ≤ 2048)
    (h : Merges b τ ((Merger.new paths d).withApidOrder ord) files (.ok out)) :
    ∃ entries : List (Entry Path), IsMerge b τ ((Merger.new paths d).withApidOrder ord) files out entries ∧
      entries.Pairwise fun x y => τ x.time = τ y.time →
        (y.apid ∉ ord → x.apid ∉ ord ∧ x.apid.toNat ≤ y.apid.toNat) ∧
        (∀ i j : Nat, ord[i]? = some x.apid → ord[j]? = some y.apid → j ≤ i) := by
  obtain ⟨es, hm⟩ := C21_merge b τ _ files hfiles out h
  refine ⟨es, hm, hm.sorted.imp_of_mem ?_⟩
  intro x y hx hy hxy ht
  have hr : rank ((Merger.new paths d).withApidOrder ord) x.apid ≤ rank ((Merger.new paths d).withApidOrder ord) y.apid := by omega
  obtain ⟨rx1, rx2⟩ := rank_order paths d ord hn x.apid
  obtain ⟨ry1, ry2⟩ := rank_order paths d ord hn y.apid
  have lx := input_apid_lt hfiles (hm.inputs x hx)
  have ly := input_apid_lt hfiles (hm.inputs y hy)
  constructor
  · intro hy'
    rw [ry2 hy'] at hr
    have hx' : x.apid ∉ ord := by
      intro hx'
      obtain ⟨i, hi⟩ := List.mem_iff_getElem?.1 hx'
      rw [rx1 i hi] at hr
      have := (List.getElem?_eq_some_iff.1 hi).1
      omega
    rw [rx2 hx'] at hr
    exact ⟨hx', by omega⟩
  · intro i j hi hj
    rw [rx1 i hi, ry1 j hj] at hr
    omega

/-! ## C24  Incomplete groups -/

/-- Full statement: only complete groups are written. -/
def C24_full : Prop :=
  ∀ (b : Build) (τ : Epoch → Int) (m : Merger Nat) (files : Nat → Option MFile) (out : List (List U8)), Readable files →
    Merges b τ m files (.ok out) →
    ∃ entries : List (Entry Nat), out = entries.map Entry.bytes ∧ ∀ e ∈ entries, Inputs b τ m files e ∧ e.group.complete b = .ret true

/-- What holds: every written group starts with a packet flagged FIRST or UNSEGMENTED; and if all input groups that do are complete, then so are
all written groups. -/
theorem C24_partial (b : Build) (τ : Epoch → Int) (m : Merger Path) (files : Path → Option MFile) (hfiles : Readable files)
    (out : List (List U8)) (h : Merges b τ m files (.ok out)) :
    ∃ entries : List (Entry Path), IsMerge b τ m files out entries ∧
      (∀ e ∈ entries, ∃ first rest, e.group.packets = first :: rest ∧ (first.header.sequenceFlags.toNat = 1 ∨ first.header.sequenceFlags.toNat = 3)) ∧
      ((∀ p ∈ m.paths, ∀ f gs, files p = some f → FileGroups f gs → ∀ g ∈ gs, ∀ first rest, g.packets = first :: rest →
          (first.header.sequenceFlags.toNat = 1 ∨ first.header.sequenceFlags.toNat = 3) → g.complete b = .ret true) →
        ∀ e ∈ entries, e.group.complete b = .ret true) := by
  obtain ⟨es, hm⟩ := C21_merge b τ m files hfiles out h
  have hf : ∀ e ∈ es, ∃ first rest, e.group.packets = first :: rest ∧ (first.header.sequenceFlags.toNat = 1 ∨ first.header.sequenceFlags.toNat = 3) := by
    intro e he
    obtain ⟨_, _, _, _, _, _, first, rest, a, c, _⟩ := hm.inputs e he
    exact ⟨first, rest, a, c⟩
  refine ⟨es, hm, hf, ?_⟩
  intro hall e he
  obtain ⟨first, rest, a, c⟩ := hf e he
  obtain ⟨p1, f, gs, p2, p3, p4, _⟩ := hm.inputs e he
  exact hall e.path p1 f gs p2 p3 e.group p4 first rest a c

/-! ## Concrete files -/

namespace MergeEx

/-- A packet with CDS time (8 bytes `1`). -/
def bytes (apid fl seq : U8) : List U8 := [0x08#8, apid, fl, seq, 0#8, 7#8] ++ List.replicate 8 1#8
def pkt (apid fl seq : U8) (off : Nat) : Packet := ⟨⟨0#8, 0#8, true, 0#8 ++ apid, fl >>> 6, 0#8 ++ seq, 7#16⟩, bytes apid fl seq, off⟩
def file (l : List U8) : MFile := ⟨l, Reader.ofBytes l⟩
def dec : TimecodeDecoder := TimecodeDecoder.new (.cds 2 2)
def time : Epoch := ⟨.utc, 1852519243009257000⟩
def tau : Epoch → Int := fun e => e.nanos

theorem readable (l : List U8) (hl : l ≠ []) : Readable (fun n : Nat => if n = 0 then some (file l) else none) := by
  intro p f hf
  simp only at hf
  split at hf
  · cases hf
    refine ⟨?_, by simp [evBytes, Ev.bytes, file, Reader.ofBytes], rfl⟩
    intro e he
    simp only [file, Reader.ofBytes, List.mem_cons, List.not_mem_nil, or_false] at he
    subst he
    exact .inl ⟨l, hl, rfl⟩
  · cases hf

/-- Two packets of the same time, APIDs 1 and 2. -/
def f12 : List U8 := bytes 1#8 0xc0#8 0#8 ++ bytes 2#8 0xc0#8 0#8
/-- Two packets of the same time and APID, sequence ids 0 and 1. -/
def f11 : List U8 := bytes 1#8 0xc0#8 0#8 ++ bytes 1#8 0xc0#8 1#8
/-- The first packet of a segmented group, alone. -/
def fFirst : List U8 := bytes 1#8 0x40#8 0#8

def files (l : List U8) : Nat → Option MFile := fun n => if n = 0 then some (file l) else none

def merger : Merger Nat := Merger.new [0] dec

theorem groups12 : FileGroups (file f12) [⟨1#16, [pkt 1#8 0xc0#8 0#8 0]⟩, ⟨2#16, [pkt 2#8 0xc0#8 0#8 14]⟩] :=
  ⟨[pkt 1#8 0xc0#8 0#8 0, pkt 2#8 0xc0#8 0#8 14], _, _, .step rfl (.step rfl (.done rfl)), .step rfl (.step rfl (.done rfl))⟩

theorem groupsFirst : FileGroups (file fFirst) [⟨1#16, [pkt 1#8 0x40#8 0#8 0]⟩] :=
  ⟨[pkt 1#8 0x40#8 0#8 0], _, _, .step rfl (.done rfl), .step rfl (.done rfl)⟩

theorem groups11 : FileGroups (file f11) [⟨1#16, [pkt 1#8 0xc0#8 0#8 0]⟩, ⟨1#16, [pkt 1#8 0xc0#8 1#8 14]⟩] :=
  ⟨[pkt 1#8 0xc0#8 0#8 0, pkt 1#8 0xc0#8 1#8 14], _, _, .step rfl (.step rfl (.done rfl)), .step rfl (.step rfl (.done rfl))⟩

theorem decodes (b : Build) (apid fl seq : U8) (off : Nat) : dec.decode b (pkt apid fl seq off) = .ret (.ok time) := by
  have : dec.decode b (pkt apid fl seq off) = Timecode.decode b (.cds 2 2) (List.replicate 8 1#8) := rfl
  rw [this]
  cases b with | mk o => cases o <;> decide

/-- The pointer made for a packet. -/
def ptr (apid seq : U8) (off : Nat) (order : Int) : Ptr Nat := ⟨0, off, 14, time, 0#8 ++ apid, 0#8 ++ seq, order⟩

theorem pointers_of {b : Build} {m : Merger Nat} {l : List U8} {gs : List PacketGroup} {ps : List (Ptr Nat)} (h : FileGroups (file l) gs)
    (hp : m.pointersLoop b tau 0 gs [] = .ret ps) : m.Pointers b tau 0 (file l) (some ps) := by
  obtain ⟨qs, s, s', h1, h2⟩ := h
  refine ⟨_, some s, h1, _, s', by rw [oks_map_ok]; exact h2, ?_⟩
  rw [oks_map_ok, hp]

theorem merges_of {b : Build} {m : Merger Nat} {l : List U8} {gs : List PacketGroup} {ps idx : List (Ptr Nat)} (hm : m.paths = [0]) (h : FileGroups (file l) gs)
    (hp : m.pointersLoop b tau 0 gs [] = .ret ps) (hne : ps ≠ []) (hi : idx.Perm ps) (hs : idx.Pairwise (fun x y => Ptr.le tau x y = true)) :
    Merges b tau m (files l) (emit (files l) idx []) := by
  have hidx : Index b tau m (files l) [0] [] (some ps) := by
    refine .step (f := file l) rfl (pointers_of h hp) (List.Perm.refl _) (List.Perm.refl _) ?_
    have : Ptr.union tau [] ps = ps := by
      unfold Ptr.union
      rw [if_neg]
      · simp [Ptr.diff]
      · cases ps with
        | nil => exact absurd rfl hne
        | cons a l => simp
    rw [this]
    exact .done
  have := Merges.finished (m := m) (files := files l) (by rw [hm]; intro p hp; simp at hp; subst hp; simp [files]) (by rw [hm]; exact List.Perm.refl _) hidx hi
  rwa [List.mergeSort_of_pairwise hs] at this

theorem loop11 (b : Build) : merger.pointersLoop b tau 0 [⟨1#16, [pkt 1#8 0xc0#8 0#8 0]⟩, ⟨1#16, [pkt 1#8 0xc0#8 1#8 14]⟩] [] =
    .ret [ptr 1#8 0#8 0 1, ptr 1#8 1#8 14 1] := by
  cases b with | mk o => cases o <;> rfl

theorem loop12 (b : Build) : (merger.withApidOrder [1#16, 2#16]).pointersLoop b tau 0 [⟨1#16, [pkt 1#8 0xc0#8 0#8 0]⟩, ⟨2#16, [pkt 2#8 0xc0#8 0#8 14]⟩] [] =
    .ret [ptr 1#8 0#8 0 4096, ptr 2#8 0#8 14 4095] := by
  cases b with | mk o => cases o <;> rfl

theorem loopFirst (b : Build) : merger.pointersLoop b tau 0 [⟨1#16, [pkt 1#8 0x40#8 0#8 0]⟩] [] = .ret [ptr 1#8 0#8 0 1] := by
  cases b with | mk o => cases o <;> rfl

theorem merges11 (b : Build) : Merges b tau merger (files f11) (.ok [bytes 1#8 0xc0#8 0#8, bytes 1#8 0xc0#8 1#8]) :=
  merges_of rfl groups11 (loop11 b) (by simp) (List.Perm.refl _) (by decide)

theorem merges11' (b : Build) : Merges b tau merger (files f11) (.ok [bytes 1#8 0xc0#8 1#8, bytes 1#8 0xc0#8 0#8]) :=
  merges_of (idx := [ptr 1#8 1#8 14 1, ptr 1#8 0#8 0 1]) rfl groups11 (loop11 b) (by simp) (List.Perm.swap _ _ _) (by decide)

theorem merges12 (b : Build) : Merges b tau (merger.withApidOrder [1#16, 2#16]) (files f12) (.ok [bytes 2#8 0xc0#8 0#8, bytes 1#8 0xc0#8 0#8]) :=
  merges_of (idx := [ptr 2#8 0#8 14 4095, ptr 1#8 0#8 0 4096]) rfl groups12 (loop12 b) (by simp) (List.Perm.swap _ _ _) (by decide)

theorem mergesFirst (b : Build) : Merges b tau merger (files fFirst) (.ok [bytes 1#8 0x40#8 0#8]) :=
  merges_of rfl groupsFirst (loopFirst b) (by simp) (List.Perm.refl _) (by decide)

end MergeEx

/-- One file, two packets with the same time and APID: both orders are possible results. -/
theorem C25_violated : ¬ C25_full := by
  intro h
  have := h ⟨true⟩ MergeEx.tau MergeEx.merger (MergeEx.files MergeEx.f11) _ _ (MergeEx.readable _ (by decide)) (MergeEx.merges11 _) (MergeEx.merges11' _)
  exact absurd this (by decide)

/-- One file with the first packet of a segmented group only: it is written. -/
theorem C24_violated : ¬ C24_full := by
  intro h
  obtain ⟨es, h1, h2⟩ := h ⟨true⟩ MergeEx.tau MergeEx.merger (MergeEx.files MergeEx.fFirst) _ (MergeEx.readable _ (by decide)) (MergeEx.mergesFirst _)
  cases es with
  | nil => simp at h1
  | cons e es =>
    obtain ⟨⟨p1, f, gs, p2, p3, p4, _⟩, hc⟩ := h2 e (by simp)
    have hp : e.path = 0 := by simpa [MergeEx.merger, Merger.new] using p1
    rw [hp] at p2
    cases p2
    have := fileGroups_unique p3 MergeEx.groupsFirst
    subst this
    have : e.group = ⟨1#16, [MergeEx.pkt 1#8 0x40#8 0#8 0]⟩ := by simpa using p4
    rw [this] at hc
    exact absurd hc (by decide)

/-- One file with packets of APID 1 and 2 of the same time: with order `[1, 2]` the packet of APID 2 is written first. -/
theorem C23_violated : ¬ C23_full := by
  intro h
  obtain ⟨es, h1, h2, h3⟩ := h ⟨true⟩ MergeEx.tau [0] MergeEx.dec [1#16, 2#16] (MergeEx.files MergeEx.f12) _ (MergeEx.readable _ (by decide)) (by decide) (MergeEx.merges12 _)
  have hlen := congrArg List.length h1
  simp only [List.length_cons, List.length_nil, List.length_map] at hlen
  match es, h1, h2, h3, hlen with
  | [], _, _, _, hlen => simp at hlen
  | [_], _, _, _, hlen => simp at hlen
  | _ :: _ :: _ :: _, _, _, _, hlen => simp at hlen
  | [x, y], h1, h2, h3, _ =>
    simp only [List.map_cons, List.map_nil, List.cons.injEq, and_true] at h1
    have hgrp : ∀ e ∈ [x, y], e.time = MergeEx.time ∧ (e.group = ⟨1#16, [MergeEx.pkt 1#8 0xc0#8 0#8 0]⟩ ∨ e.group = ⟨2#16, [MergeEx.pkt 2#8 0xc0#8 0#8 14]⟩) := by
      intro e he
      obtain ⟨p1, f, gs, p2, p3, p4, first, rest, p5, _, p6, _⟩ := h2 e he
      have hp : e.path = 0 := by simpa [Merger.withApidOrder, Merger.new] using p1
      rw [hp] at p2
      cases p2
      have := fileGroups_unique p3 MergeEx.groups12
      subst this
      have hg : e.group = ⟨1#16, [MergeEx.pkt 1#8 0xc0#8 0#8 0]⟩ ∨ e.group = ⟨2#16, [MergeEx.pkt 2#8 0xc0#8 0#8 14]⟩ := by simpa using p4
      refine ⟨?_, hg⟩
      have : MergeEx.dec.decode ⟨true⟩ first = .ret (.ok MergeEx.time) := by
        rcases hg with hg | hg
        · rw [hg] at p5
          simp only [List.cons.injEq] at p5
          rw [← p5.1]; exact MergeEx.decodes ..
        · rw [hg] at p5
          simp only [List.cons.injEq] at p5
          rw [← p5.1]; exact MergeEx.decodes ..
      have p6' : MergeEx.dec.decode ⟨true⟩ first = .ret (.ok e.time) := p6
      rw [this] at p6'
      simp only [Outcome.ret.injEq, Except.ok.injEq] at p6'
      exact p6'.symm
    obtain ⟨tx, gx⟩ := hgrp x (by simp)
    obtain ⟨ty, gy⟩ := hgrp y (by simp)
    have ax : x.apid = 2#16 := by
      rcases gx with g | g
      · exfalso
        have := h1.1
        rw [Entry.bytes, g] at this
        exact absurd this (by decide)
      · simp only [Entry.apid, g]; rfl
    have ay : y.apid = 1#16 := by
      rcases gy with g | g
      · simp only [Entry.apid, g]; rfl
      · exfalso
        have := h1.2
        rw [Entry.bytes, g] at this
        exact absurd this (by decide)
    simp only [List.pairwise_cons, List.mem_cons, List.not_mem_nil, or_false, forall_eq] at h3
    apply h3.1 (by rw [tx, ty])
    rw [ax, ay]
    refine ⟨0, rfl, ?_⟩
    intro j hj
    match j with
    | 0 => simp at hj
    | j + 1 => omega

/-- The hypotheses of C21 and C25 on the concrete file: readable, and a result exists. -/
example : Readable (MergeEx.files MergeEx.f12) ∧ ∃ out, Merges ⟨true⟩ MergeEx.tau (MergeEx.merger.withApidOrder [1#16, 2#16]) (MergeEx.files MergeEx.f12) (.ok out) :=
  ⟨MergeEx.readable _ (by decide), _, MergeEx.merges12 _⟩

/-- The default window is 1900 to 2200. -/
theorem days2200_eq : Merger.days2200 = ((List.range' 1900 300).map yearDays).sum := by decide +kernel

end Ccsds
