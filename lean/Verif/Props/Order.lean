import Verif.Props.Diff
import Verif.Props.MergeCommand
/-!
# C107: the order of the inputs of `merge`; C108: the order of packets, and of the two files, for `diff`
-/
namespace Ccsds
open Spec

/-! ## C107 -/

section
variable {Path : Type} [DecidableEq Path]
open Merger

theorem distinct_nodup (l : List Path) : (distinct l).Nodup := by
  induction l with
  | nil => simp [distinct]
  | cons a l ih =>
    unfold distinct
    split
    · exact ih
    · rename_i h
      exact List.nodup_cons.2 ⟨fun hm => h ((mem_distinct l a).1 hm), ih⟩

omit [DecidableEq Path] in
theorem pointersLoop_withPaths (b : Build) (τ : Epoch → Int) (m : Merger Path) (ps : List Path) (path : Path) (gs : List PacketGroup) : ∀ acc,
    ({ m with paths := ps } : Merger Path).pointersLoop b τ path gs acc = m.pointersLoop b τ path gs acc := by
  have hp : ∀ g, ({ m with paths := ps } : Merger Path).pointer b τ path g = m.pointer b τ path g := fun g => rfl
  induction gs with
  | nil => intro acc; rfl
  | cons g gs ih =>
    intro acc
    simp only [pointersLoop, hp, ih]

omit [DecidableEq Path] in
theorem index_withPaths {b : Build} {τ : Epoch → Int} {m : Merger Path} {files : Path → Option MFile} (ps : List Path) {visit : List Path} {idx : List (Ptr Path)}
    {r : Option (List (Ptr Path))} (h : Index b τ m files visit idx r) : Index b τ { m with paths := ps } files visit idx r := by
  have hP : ∀ p f r, m.Pointers b τ p f r → ({ m with paths := ps } : Merger Path).Pointers b τ p f r := by
    intro p f r h
    unfold Pointers at *
    simp only [pointersLoop_withPaths]
    exact h
  induction h with
  | done => exact .done
  | panicked h1 h2 => exact .panicked h1 (hP _ _ _ h2)
  | step h1 h2 h3 h4 _ ih => exact .step h1 (hP _ _ _ h2) h3 h4 ih

theorem merges_paths {b : Build} {τ : Epoch → Int} {m : Merger Path} {files : Path → Option MFile} (ps : List Path) (hp : ∀ p, p ∈ ps ↔ p ∈ m.paths)
    {r : MResult} (h : Merges b τ m files r) : Merges b τ { m with paths := ps } files r := by
  have hd : (distinct m.paths).Perm (distinct ps) := by
    rw [List.perm_ext_iff_of_nodup (distinct_nodup _) (distinct_nodup _)]
    intro p
    rw [mem_distinct, mem_distinct, hp]
  cases h with
  | openFails h1 h2 => exact .openFails ((hp _).2 h1) h2
  | panicked h1 h2 h3 => exact .panicked (fun p hq => h1 p ((hp p).1 hq)) (h2.trans hd) (index_withPaths ps h3)
  | finished h1 h2 h3 h4 => exact .finished (fun p hq => h1 p ((hp p).1 hq)) (h2.trans hd) (index_withPaths ps h3) h4

/-- C107: giving the input files in another order, or some of them more than once, makes no difference to what `merge` may do: whatever it can write, return or fail with for the one
list of inputs it can for the other. -/
theorem C107_merge (b : Build) (τ : Epoch → Int) (m m' : Merger Path) (files : Path → Option MFile) (hp : ∀ p, p ∈ m'.paths ↔ p ∈ m.paths)
    (ho : m'.timeDecoder = m.timeDecoder ∧ m'.order = m.order ∧ m'.from? = m.from? ∧ m'.to? = m.to? ∧ m'.apids? = m.apids?) (r : MResult) :
    Merges b τ m files r ↔ Merges b τ m' files r := by
  obtain ⟨o1, o2, o3, o4, o5⟩ := ho
  have e : m' = { m with paths := m'.paths } := by
    cases m'; cases m; simp_all
  have e' : m = { m' with paths := m.paths } := by
    cases m'; cases m; simp_all
  constructor
  · intro h
    rw [e]
    exact merges_paths _ hp h
  · intro h
    rw [e']
    exact merges_paths _ (fun p => (hp p).symm) h

end

namespace Cmd
variable {Path : Type} [DecidableEq Path]

theorem mergeRun_inputs {b : Build} {τ : Epoch → Int} {micros : Epoch → Nat} {sched : Path → List U8 → Reader} {a : MergeArgs Path} {fs : FS Path} (ps : List Path)
    (hp : ∀ p, p ∈ ps ↔ p ∈ a.inputs) {st : Status} {fs' : FS Path} (h : MergeRun b τ micros sched a fs st fs') :
    MergeRun b τ micros sched { a with inputs := ps } fs st fs' := by
  have hne : a.inputs = [] ↔ ps = [] := by
    constructor
    · intro h; rw [List.eq_nil_iff_forall_not_mem]; intro p hq; rw [hp, h] at hq; cases hq
    · intro h; rw [List.eq_nil_iff_forall_not_mem]; intro p hq; rw [← hp, h] at hq; cases hq
  cases h with
  | exists_ h1 h2 => exact .exists_ h1 h2
  | badName h1 h2 => exact .badName h1 h2
  | createFails h1 h2 => exact .createFails h1 h2
  | noInputs h1 h2 h3 => exact .noInputs h1 h2 (hne.1 h3)
  | @ran ord res h1 h2 h3 h4 =>
    refine .ran (a := { a with inputs := ps }) h1 h2 (fun h => h3 (hne.2 h)) ?_
    have hpaths : ∀ (x : MergeArgs Path), (mergerOf micros x ord).paths = x.inputs := by
      intro x; unfold mergerOf; cases x.from? <;> cases x.to? <;> rfl
    have heq : mergerOf micros { a with inputs := ps } ord = { mergerOf micros a ord with paths := ps } := by
      unfold mergerOf; cases a.from? <;> cases a.to? <;> rfl
    rw [heq]
    exact merges_paths ps (fun p => by rw [hpaths]; exact hp p) h4

end Cmd

/-- C107 for `ccsds merge`: neither the status nor the files afterwards depend on the order of the inputs on the command line or on repetitions. -/
theorem C107_command {Path : Type} [DecidableEq Path] (b : Build) (τ : Epoch → Int) (micros : Epoch → Nat) (sched : Path → List U8 → Reader) (a : Cmd.MergeArgs Path)
    (fs : Cmd.FS Path) (ps : List Path) (hp : ∀ p, p ∈ ps ↔ p ∈ a.inputs) (st : Cmd.Status) (fs' : Cmd.FS Path) :
    Cmd.MergeRun b τ micros sched a fs st fs' ↔ Cmd.MergeRun b τ micros sched { a with inputs := ps } fs st fs' :=
  ⟨fun h => Cmd.mergeRun_inputs ps hp h, fun h => Cmd.mergeRun_inputs (a := { a with inputs := ps }) a.inputs (fun p => (hp p).symm) h⟩

example {Path : Type} (p q : Path) : ∀ x, x ∈ [q, p, q] ↔ x ∈ [p, q] := by grind

/-! ## C108 -/

open Diff

/-- The line, on the other side. -/
def Diff.Line.mirror : Line → Line
  | .left k => .right k
  | .right k => .left k

/-- The result with left and right exchanged. -/
def Diff.DResult.mirror : DResult → DResult
  | .same t => .same (t.map (·.map fun x => (x.1, x.2.2, x.2.1)))
  | .differ t lines => .differ (t.map (·.map fun x => (x.1, x.2.2, x.2.1))) (lines.map Line.mirror)
  | r => r

theorem diffLines_mirror (n : Nat) : ∀ l r : List Key, l.length + r.length ≤ n → diffLines r l = (diffLines l r).map Line.mirror := by
  induction n with
  | zero =>
    intro l r h
    obtain rfl := List.length_eq_zero_iff.1 (by omega : l.length = 0)
    obtain rfl := List.length_eq_zero_iff.1 (by omega : r.length = 0)
    simp [diffLines_nil]
  | succ n ih =>
    intro l r h
    cases l with
    | nil =>
      cases r with
      | nil => simp [diffLines_nil]
      | cons c r => rw [diffLines_nil, diffLines_cons_nil, List.tail_cons, List.map_map]; rfl
    | cons a l =>
      cases r with
      | nil => rw [diffLines_nil, diffLines_cons_nil, List.tail_cons, List.map_map]; rfl
      | cons c r =>
        simp only [List.length_cons] at h
        rw [diffLines_cons, diffLines_cons]
        by_cases e : a = c
        · rw [if_pos e, if_pos e.symm, ih l r (by omega)]
        · rw [if_neg e, if_neg fun h => e h.symm]
          rcases Nat.lt_trichotomy a.val c.val with hl | hl | hl
          · rw [if_pos hl, if_neg (by omega), List.map_cons, ih l (c :: r) (by simp only [List.length_cons]; omega)]; rfl
          · exact absurd (key_val_inj hl) e
          · rw [if_pos hl, if_neg (by omega : ¬ a.val < c.val), List.map_cons, ih (a :: l) r (by simp only [List.length_cons]; omega)]; rfl

theorem rows_unique {x y : List (U16 × Nat × Nat)} (hx : x.Pairwise fun a b => a.1 < b.1) (hy : y.Pairwise fun a b => a.1 < b.1) (h : ∀ r, r ∈ x ↔ r ∈ y) : x = y := by
  have nd : ∀ z : List (U16 × Nat × Nat), z.Pairwise (fun a b => a.1 < b.1) → z.Nodup := by
    intro z hz
    refine hz.imp fun h e => ?_
    rw [e] at h
    exact absurd (BitVec.lt_def.1 h) (Nat.lt_irrefl _)
  refine ((List.perm_ext_iff_of_nodup (nd x hx) (nd y hy)).2 h).eq_of_pairwise (fun a b _ _ h1 h2 => ?_) hx hy
  have h1 := BitVec.lt_def.1 h1
  have h2 := BitVec.lt_def.1 h2
  omega

theorem table_mirror (ps qs : List Packet) : table (counts qs ps) = (table (counts ps qs)).map fun x => (x.1, x.2.2, x.2.1) := by
  obtain ⟨h1, h2⟩ := table_spec ps qs
  obtain ⟨k1, k2⟩ := table_spec qs ps
  refine rows_unique k1 ?_ ?_
  · rw [List.pairwise_map]; exact h1
  · rintro ⟨a, x, y⟩
    rw [k2, List.mem_map]
    constructor
    · rintro ⟨e1, e2, e3⟩
      exact ⟨(a, y, x), (h2 a y x).2 ⟨e2, e1, fun h => e3 h.symm⟩, rfl⟩
    · rintro ⟨⟨a', x', y'⟩, hm, e⟩
      simp only [Prod.mk.injEq] at e
      obtain ⟨rfl, rfl, rfl⟩ := e
      obtain ⟨e1, e2, e3⟩ := (h2 _ _ _).1 hm
      exact ⟨e2, e1, fun h => e3 h.symm⟩

theorem compare_mirror (crc : List U8 → U32) (ps qs : List Packet) (hp : ∀ p ∈ ps, p.WellFormed) (hq : ∀ p ∈ qs, p.WellFormed) (sc : Bool) :
    compare crc qs ps sc = (compare crc ps qs sc).mirror := by
  rw [compare_eq crc ps qs hp hq, compare_eq crc qs ps hq hp, diffLines_mirror _ _ _ (Nat.le_refl _), table_mirror]
  by_cases hn : ps = [] ∧ qs = []
  · rw [if_pos hn, if_pos ⟨hn.2, hn.1⟩]; rfl
  · rw [if_neg hn, if_neg fun h => hn ⟨h.2, h.1⟩]
    by_cases hd : diffLines (sortKeys (ps.map (packetKey crc))) (sortKeys (qs.map (packetKey crc))) = []
    · rw [if_pos hd, if_pos (by rw [hd]; rfl)]
      cases sc <;> rfl
    · rw [if_neg hd, if_neg (by rw [List.map_eq_nil_iff]; exact hd)]
      cases sc <;> rfl

/-- C108: exchanging the two files exchanges the sides of every line and of every row of the table, and changes nothing else. -/
theorem C108_exchange (crc : List U8 → U32) (f g : MFile) (hf : f.reader.Delivers f.content) (hg : g.reader.Delivers g.content) (sc : Bool) (res : DResult)
    (h : Runs crc (some f) (some g) sc res) : Runs crc (some g) (some f) sc res.mirror := by
  obtain ⟨ps, _, e, a1, _, _, _, _, _⟩ := C04_aux _ _ f.reader 0 (Nat.le_refl _) hf
  obtain ⟨qs, _, e', b1, _, _, _, _, _⟩ := C04_aux _ _ g.reader 0 (Nat.le_refl _) hg
  by_cases hn : e = none ∨ e' = none
  · rw [(C54_panic crc f g _ _ _ _ sc res a1 b1 hn).1 h]
    exact (C54_panic crc g f _ _ _ _ sc _ b1 a1 hn.symm).2 rfl
  · cases e with
    | none => exact absurd (.inl rfl) hn
    | some s =>
      cases e' with
      | none => exact absurd (.inr rfl) hn
      | some t =>
        have dp : Decodes f.reader ps := ⟨s, a1⟩
        have dq : Decodes g.reader qs := ⟨t, b1⟩
        rw [(C54_total crc f g ps qs dp dq sc res).1 h, ← compare_mirror crc ps qs (decodes_wellFormed hf dp) (decodes_wellFormed hg dq)]
        exact (C54_total crc g f qs ps dq dp sc _).2 rfl

theorem apidCount_keys (crc : List U8 → U32) {ps ps' : List Packet} (h : (ps.map (packetKey crc)).Perm (ps'.map (packetKey crc))) (a : U16) :
    apidCount ps a = apidCount ps' a := by
  have key : ∀ l : List Packet, apidCount l a = (l.map (packetKey crc)).countP (fun k => k.apid == a) := by
    intro l
    rw [List.countP_map]; rfl
  rw [key, key, h.countP_eq]

/-- C108: what `diff` finds only depends on which packets (APID, sequence id, CRC) the files hold and how often, not on their order in the files. -/
theorem C108_order (crc : List U8 → U32) (f g f' g' : MFile) (hf : f.reader.Delivers f.content) (hg : g.reader.Delivers g.content) (hf' : f'.reader.Delivers f'.content)
    (hg' : g'.reader.Delivers g'.content) (ps qs ps' qs' : List Packet) (hp : Decodes f.reader ps) (hq : Decodes g.reader qs) (hp' : Decodes f'.reader ps')
    (hq' : Decodes g'.reader qs') (hl : (ps.map (packetKey crc)).Perm (ps'.map (packetKey crc))) (hr : (qs.map (packetKey crc)).Perm (qs'.map (packetKey crc)))
    (sc : Bool) (res : DResult) : Runs crc (some f) (some g) sc res ↔ Runs crc (some f') (some g') sc res := by
  rw [C54_total crc f g ps qs hp hq, C54_total crc f' g' ps' qs' hp' hq']
  have hs : ∀ L R : List Key, L.Perm R → sortKeys L = sortKeys R := fun L R h =>
    (((sortKeys_perm L).trans h).trans (sortKeys_perm R).symm).eq_of_pairwise
      (fun a b _ _ h1 h2 => key_val_inj (Nat.le_antisymm h1 h2)) (sortKeys_asc L) (sortKeys_asc R)
  have hnil : ∀ {x y : List Packet}, (x.map (packetKey crc)).Perm (y.map (packetKey crc)) → (x = [] ↔ y = []) := by
    intro x y h
    have := h.length_eq
    rw [List.length_map, List.length_map] at this
    rw [← List.length_eq_zero_iff, ← List.length_eq_zero_iff, this]
  have ht : table (counts ps qs) = table (counts ps' qs') := by
    obtain ⟨h1, h2⟩ := table_spec ps qs
    obtain ⟨k1, k2⟩ := table_spec ps' qs'
    refine rows_unique h1 k1 ?_
    rintro ⟨a, x, y⟩
    rw [h2, k2, apidCount_keys crc hl, apidCount_keys crc hr]
  rw [compare_eq crc ps qs (decodes_wellFormed hf hp) (decodes_wellFormed hg hq), compare_eq crc ps' qs' (decodes_wellFormed hf' hp') (decodes_wellFormed hg' hq'),
    hs _ _ hl, hs _ _ hr, ht]
  simp only [hnil hl, hnil hr]

/-- The file with two packets against the one with one packet (`C54_violated`), the other way round. -/
example (c : List U8 → U32) (res : DResult) (h : Runs c (some DiffEx.both) (some DiffEx.one) true res) : Runs c (some DiffEx.one) (some DiffEx.both) true res.mirror :=
  C108_exchange c _ _ FilterEx.delivers DiffEx.delivers1 true res h

namespace OrderEx

def stream' : List U8 := FilterEx.late ++ FilterEx.early
def swapped : MFile := ⟨stream', Reader.ofBytes stream'⟩

theorem delivers' : swapped.reader.Delivers swapped.content := by
  refine ⟨?_, by simp [evBytes, Ev.bytes, Reader.ofBytes, swapped], rfl⟩
  intro e he
  simp only [swapped, Reader.ofBytes, List.mem_cons, List.not_mem_nil, or_false] at he
  subst he
  exact .inl ⟨stream', by decide, rfl⟩

theorem decodes' : Decodes swapped.reader [FilterEx.latePkt 0, FilterEx.earlyPkt 14] := ⟨_, .step rfl (.step rfl (.done rfl))⟩

/-- The two packets in the other order, against the file with one of them. -/
example (c : List U8 → U32) (res : DResult) : Runs c (some DiffEx.both) (some DiffEx.one) true res ↔ Runs c (some swapped) (some DiffEx.one) true res :=
  C108_order c DiffEx.both DiffEx.one swapped DiffEx.one FilterEx.delivers DiffEx.delivers1 delivers' DiffEx.delivers1 _ _ _ _ FilterEx.decodes DiffEx.decodes1 decodes'
    DiffEx.decodes1 (.swap _ _ _) (.refl _) true res

end OrderEx

end Ccsds
