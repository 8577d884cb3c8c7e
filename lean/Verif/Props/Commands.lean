import Verif.Model.Commands
import Verif.Props.Merge
import Verif.Props.Filter
import Verif.Props.NumberRanges
/-!
# C62 – C64: the `merge` and `filter` commands and their files
-/
namespace Ccsds
open Cmd Spec
variable {Path : Type} [DecidableEq Path]

/-- Reading a file delivers its content (in any chunks, with any interruptions). -/
def Faithful (sched : Path → List U8 → Reader) : Prop := ∀ p c, (sched p c).Delivers c

theorem files_readable (fs : FS Path) (sched : Path → List U8 → Reader) (hs : Faithful sched) : Readable (fs.files sched) := by
  intro p f h
  simp only [FS.files, Option.map_eq_some_iff] at h
  obtain ⟨c, _, rfl⟩ := h
  exact hs p c

/-! ## C62  Only the output file is written, and an existing one only with `--clobber` -/

/-- Whatever happens, `ccsds filter` changes no file but its output, and not even that if it exists and `--clobber` is not given. -/
theorem C62_filter (b : Build) (τ : Epoch → Int) (ud : Char → Bool) (sched : Path → List U8 → Reader) (a : FilterArgs Path) (fs fs' : FS Path)
    (st : Status) (h : FilterRun b τ ud sched a fs st fs') :
    (∀ p, p ≠ a.output → fs' p = fs p) ∧ (a.clobber = false → fs a.output ≠ none → fs' = fs ∧ st = .error) ∧
      (st = .ok → fs' a.output ≠ none) := by
  cases h with
  | exists_ h1 h2 => exact ⟨fun _ _ => rfl, fun _ _ => ⟨rfl, rfl⟩, by simp⟩
  | noInput h1 h2 => exact ⟨fun _ _ => rfl, fun _ _ => ⟨rfl, rfl⟩, by simp⟩
  | createFails h1 h2 => exact ⟨fun _ _ => rfl, fun _ _ => ⟨rfl, rfl⟩, by simp⟩
  | badArgs h1 _ _ =>
    refine ⟨fun p hp => by simp [FS.put, hp], fun hc ho => ?_, by simp⟩
    rcases h1 with h1 | h1
    · simp [hc] at h1
    · exact absurd h1 ho
  | ran h1 _ _ _ _ _ =>
    refine ⟨fun p hp => by simp [FS.put, hp], fun hc ho => ?_, by simp [FS.put]⟩
    rcases h1 with h1 | h1
    · simp [hc] at h1
    · exact absurd h1 ho

/-- The same for `ccsds merge`. -/
theorem C62_merge (b : Build) (τ : Epoch → Int) (micros : Epoch → Nat) (sched : Path → List U8 → Reader) (a : MergeArgs Path) (fs fs' : FS Path)
    (st : Status) (h : MergeRun b τ micros sched a fs st fs') :
    (∀ p, p ≠ a.output → fs' p = fs p) ∧ (a.clobber = false → fs a.output ≠ none → fs' = fs ∧ st = .error) ∧
      (st = .ok → fs' a.output ≠ none) := by
  cases h with
  | exists_ h1 h2 => exact ⟨fun _ _ => rfl, fun _ _ => ⟨rfl, rfl⟩, by simp⟩
  | badName h1 h2 => exact ⟨fun _ _ => rfl, fun _ _ => ⟨rfl, rfl⟩, by simp⟩
  | createFails h1 h2 => exact ⟨fun _ _ => rfl, fun _ _ => ⟨rfl, rfl⟩, by simp⟩
  | noInputs h1 _ _ =>
    refine ⟨fun p hp => by simp [FS.put, hp], fun hc ho => ?_, by simp⟩
    rcases h1 with h1 | h1
    · simp [hc] at h1
    · exact absurd h1 ho
  | ran h1 _ _ _ =>
    refine ⟨fun p hp => by simp [FS.put, hp], fun hc ho => ?_, by simp [FS.put]⟩
    rcases h1 with h1 | h1
    · simp [hc] at h1
    · exact absurd h1 ho

/-! ## C63  A failed command leaves the output as it was -/

/-- Full statement: if the command does not succeed, no file has changed. -/
def C63_full : Prop :=
  (∀ (b : Build) (τ : Epoch → Int) (ud : Char → Bool) (sched : Nat → List U8 → Reader) (a : FilterArgs Nat) (fs fs' : FS Nat) (st : Status),
    Faithful sched → FilterRun b τ ud sched a fs st fs' → st ≠ .ok → fs' = fs) ∧
  (∀ (b : Build) (τ : Epoch → Int) (micros : Epoch → Nat) (sched : Nat → List U8 → Reader) (a : MergeArgs Nat) (fs fs' : FS Nat) (st : Status),
    Faithful sched → MergeRun b τ micros sched a fs st fs' → st ≠ .ok → fs' = fs)

/-- What holds for `merge`: after a failure the files are unchanged, or the output is empty – never a part of a merge. -/
theorem C63_merge_partial (b : Build) (τ : Epoch → Int) (micros : Epoch → Nat) (sched : Path → List U8 → Reader) (hs : Faithful sched)
    (a : MergeArgs Path) (fs fs' : FS Path) (st : Status) (h : MergeRun b τ micros sched a fs st fs') (hst : st ≠ .ok) :
    fs' = fs ∨ (fs' = fs.put a.output [] ∧ (a.clobber = true ∨ fs a.output = none) ∧
      (a.inputs = [] ∨ (∃ p ∈ a.inputs, p ≠ a.output ∧ fs p = none) ∨ st = .panic)) := by
  cases h with
  | exists_ h1 h2 => exact .inl rfl
  | badName h1 h2 => exact .inl rfl
  | createFails h1 h2 => exact .inl rfl
  | noInputs h1 _ h2 => exact .inr ⟨rfl, h1, .inl h2⟩
  | @ran ord res h1 h2 h3 hm =>
    right
    cases res with
    | panic => exact ⟨rfl, h1, .inr (.inr rfl)⟩
    | ok w => simp [mergeEnd] at hst
    | error w =>
      obtain ⟨hw, p, hp, hf⟩ := C21_error b τ _ _ (files_readable _ sched hs) w hm
      subst hw
      refine ⟨rfl, h1, .inr (.inl ⟨p, ?_, ?_⟩)⟩
      · cases hfr : a.from? <;> cases hto : a.to? <;> simpa [mergerOf, hfr, hto, Merger.withApids, Merger.withApidOrder, Merger.withFrom,
          Merger.withTo, Merger.new] using hp
      · simp only [FS.files, Option.map_eq_none_iff, FS.put] at hf
        split at hf
        · cases hf
        · rename_i hne; exact ⟨hne, hf⟩

/-- What holds for `filter`: after a failure the files are unchanged; or the output is empty, and the arguments were bad; or the program panicked and
the output holds what had been written until then. -/
theorem C63_filter_partial (b : Build) (τ : Epoch → Int) (ud : Char → Bool) (sched : Path → List U8 → Reader) (a : FilterArgs Path)
    (fs fs' : FS Path) (st : Status) (h : FilterRun b τ ud sched a fs st fs') (hst : st ≠ .ok) :
    fs' = fs ∨ ((a.clobber = true ∨ fs a.output = none) ∧
      ((fs' = fs.put a.output [] ∧ st = .error ∧ (Ranges.parse ud a.incl = none ∨ Ranges.parse ud a.excl = none ∨
          (∃ i e, Ranges.parse ud a.incl = some i ∧ Ranges.parse ud a.excl = some e ∧ (∀ n ∈ i ++ e, 65536 ≤ n) ∧ a.before = none ∧ a.after = none))) ∨
        st = .panic)) := by
  cases h with
  | exists_ h1 h2 => exact .inl rfl
  | noInput h1 h2 => exact .inl rfl
  | createFails h1 h2 => exact .inl rfl
  | badArgs h1 h2 h3 => exact .inr ⟨h1, .inl ⟨rfl, rfl, h3.elim .inl fun h => .inr (.inl h)⟩⟩
  | @ran content i e res h1 h2 h3 h4 h5 hr =>
    right
    refine ⟨h1, ?_⟩
    cases hr with
    | noFilters n1 n2 n3 n4 =>
      refine .inl ⟨rfl, rfl, .inr (.inr ⟨i, e, h4, h5, ?_, n3, n4⟩)⟩
      intro n hn
      have hz : ∀ l : List Nat, Ranges.toU16 l = [] → ∀ x ∈ l, 65536 ≤ x := by
        intro l hl x hx
        simp only [Ranges.toU16, List.filterMap_eq_nil_iff] at hl
        have := hl x hx
        split at this
        · cases this
        · omega
      rcases List.mem_append.1 hn with hn | hn
      · exact hz i n1 n hn
      · exact hz e n2 n hn
    | @run items ends _ _ =>
      cases ends with
      | true => simp [filterEnd] at hst
      | false => exact .inr rfl

/-! ## The empty file -/

theorem decodes_empty {r : Reader} (hd : r.Delivers []) : Decodes r [] := by
  obtain ⟨qs, s, h, k, _⟩ := C05_roundtrip [] [] r (by simp) (by have := packetLen_ge []; simp; omega) (by simp) (by simpa [wire] using hd)
  have : qs = [] := by simpa using k
  subst this
  exact ⟨s, h⟩

theorem filter_empty (b : Build) (τ : Epoch → Int) {r : Reader} (hd : r.Delivers []) {incl excl : List U16} {before after : Option Epoch}
    {res : Filter.FResult} (h : Filter.Runs b τ r incl excl before after res) : (filterEnd res).2 = [] := by
  obtain ⟨s, hc⟩ := decodes_empty hd
  cases h with
  | noFilters => rfl
  | @run items ends _ hi =>
    have : items = [] := by
      split at hi
      · obtain ⟨pitems, e, c1, gitems, g, c2, h⟩ := hi
        obtain ⟨rfl, rfl⟩ := c1.unique hc
        have hg : Collects PacketGroupIter.next (PacketGroupIter.new (oks (([] : List Packet).map (Except.ok (ε := Error))))) [] (some ⟨[], none, true⟩) :=
          .done rfl
        obtain ⟨rfl, _⟩ := c2.unique hg
        simp only [oks, List.filterMap_nil, Filter.timedAll, Prod.mk.injEq] at h
        exact h.1.symm
      · obtain ⟨ps, e, c1, rfl, _⟩ := hi
        obtain ⟨rfl, _⟩ := c1.unique (mapWhile_collects _ _ _ _ hc)
        rfl
    subst this
    cases ends <;> rfl

/-! ## C64  The output is computed from the inputs as they were -/

/-- Full statement: a successful `ccsds filter` leaves in the output what `filter` writes when it reads the input as it was before the command, and a
successful `ccsds merge` what `merge` writes for the inputs as they were. -/
def C64_full : Prop :=
  (∀ (b : Build) (τ : Epoch → Int) (ud : Char → Bool) (sched : Nat → List U8 → Reader) (a : FilterArgs Nat) (fs fs' : FS Nat),
    Faithful sched → FilterRun b τ ud sched a fs .ok fs' →
    ∃ c i e w, fs a.input = some c ∧ Ranges.parse ud a.incl = some i ∧ Ranges.parse ud a.excl = some e ∧
      Filter.Runs b τ (sched a.input c) (Ranges.toU16 i) (Ranges.toU16 e) a.before a.after (.ok w) ∧ fs' a.output = some w.flatten) ∧
  (∀ (b : Build) (τ : Epoch → Int) (micros : Epoch → Nat) (sched : Nat → List U8 → Reader) (a : MergeArgs Nat) (fs fs' : FS Nat),
    Faithful sched → MergeRun b τ micros sched a fs .ok fs' →
    ∃ ord w, orderOf a = some ord ∧ Merger.Merges b τ (mergerOf micros a ord) (fs.files sched) (.ok w) ∧ fs' a.output = some w.flatten)

/-- It holds for `filter` if the input is not the output. -/
theorem C64_filter_partial (b : Build) (τ : Epoch → Int) (ud : Char → Bool) (sched : Path → List U8 → Reader) (a : FilterArgs Path) (fs fs' : FS Path)
    (hio : a.input ≠ a.output) (h : FilterRun b τ ud sched a fs .ok fs') :
    ∃ c i e w, fs a.input = some c ∧ Ranges.parse ud a.incl = some i ∧ Ranges.parse ud a.excl = some e ∧
      Filter.Runs b τ (sched a.input c) (Ranges.toU16 i) (Ranges.toU16 e) a.before a.after (.ok w) ∧ fs' = fs.put a.output w.flatten := by
  generalize hst : Status.ok = st at h
  cases h with
  | exists_ | noInput | createFails | badArgs => cases hst
  | @ran content i e res h1 h2 h3 h4 h5 hr =>
    simp only [FS.put, hio, if_false] at h3
    cases res with
    | noFilters => cases hst
    | panic w => cases hst
    | ok w => exact ⟨content, i, e, w, h3, h4, h5, hr, rfl⟩

/-- If it is, everything is lost: a successful run leaves the file empty. -/
theorem C64_filter_in_place (b : Build) (τ : Epoch → Int) (ud : Char → Bool)
    (sched : Path → List U8 → Reader) (hs : Faithful sched) (a : FilterArgs Path)
    (fs fs' : FS Path) (st : Status) (hio : a.input = a.output) (h : FilterRun b τ ud sched a fs st fs') (hne : fs' ≠ fs) :
    fs' = fs.put a.output [] := by
  cases h with
  | exists_ | noInput | createFails => exact absurd rfl hne
  | badArgs => rfl
  | @ran content i e res h1 h2 h3 h4 h5 hr =>
    simp only [FS.put, hio, if_true, Option.some.injEq] at h3
    subst h3
    have hd := hs a.input []
    suffices hw : (filterEnd res).2 = [] by rw [hw]; rfl
    exact filter_empty b τ hd hr

/-! ### Merging: the output among the inputs -/

theorem pointersLoop_path {b : Build} {τ : Epoch → Int} {m : Merger Path} {path : Path} (gs : List PacketGroup) :
    ∀ (acc ps : List (Ptr Path)), (∀ q ∈ acc, q.path = path) → m.pointersLoop b τ path gs acc = .ret ps → ∀ q ∈ ps, q.path = path := by
  induction gs with
  | nil => intro acc ps ha h; cases h; exact ha
  | cons g gs ih =>
    intro acc ps ha h
    rw [Merger.pointersLoop] at h
    cases hp : m.pointer b τ path g with
    | panic => rw [hp] at h; cases h
    | ret o =>
      rw [hp] at h
      cases o with
      | none => exact ih _ _ ha h
      | some q =>
        refine ih _ _ ?_ h
        have hq : q.path = path := by
          unfold Merger.pointer at hp
          split at hp
          · cases hp
          · split at hp
            · cases hp
            · cases hd : m.timeDecoder.decode b ‹Packet› with
              | panic => rw [hd] at hp; cases hp
              | ret d =>
                rw [hd] at hp
                cases d with
                | error e => cases hp
                | ok e =>
                  simp only [bind, Outcome.bind] at hp
                  split at hp
                  · cases hp
                  · split at hp
                    · cases hp
                    · split at hp
                      · cases hp
                      · cases hp; rfl
        intro x hx
        unfold Ptr.insert at hx
        split at hx
        · exact ha x hx
        · rcases List.mem_append.1 hx with hx | hx
          · exact ha x hx
          · rw [List.mem_singleton.1 hx]; exact hq

theorem pointers_path {b : Build} {τ : Epoch → Int} {m : Merger Path} {path : Path} {f : MFile} {ps : List (Ptr Path)}
    (h : m.Pointers b τ path f (some ps)) : ∀ q ∈ ps, q.path = path := by
  obtain ⟨items, e, _, gitems, s, _, h⟩ := h
  split at h
  · cases h
    exact pointersLoop_path _ [] _ (by simp) (by assumption)
  · cases h

theorem union_mem {τ : Epoch → Int} {x y : List (Ptr Path)} {q : Ptr Path} (h : q ∈ Ptr.union τ x y) : q ∈ x ∨ q ∈ y := by
  unfold Ptr.union at h
  split at h
  · rcases List.mem_append.1 h with h | h
    · exact .inl h
    · exact .inr (List.mem_filter.1 h).1
  · rcases List.mem_append.1 h with h | h
    · exact .inr h
    · exact .inl (List.mem_filter.1 h).1

/-- The index only depends on the files visited, and points into them. -/
theorem index_congr {b : Build} {τ : Epoch → Int} {m : Merger Path} {files files' : Path → Option MFile} {visit : List Path} {idx : List (Ptr Path)}
    {r : Option (List (Ptr Path))} (h : Merger.Index b τ m files visit idx r) :
    ∀ (_ : ∀ p ∈ visit, files p = files' p) (all : List Path) (_ : ∀ p ∈ visit, p ∈ all) (_ : ∀ q ∈ idx, q.path ∈ all),
      Merger.Index b τ m files' visit idx r ∧ ∀ l ∈ r, ∀ q ∈ l, q.path ∈ all := by
  induction h with
  | done => intro _ _ _ hi; exact ⟨.done, fun l hl q hq => by cases hl; exact hi q hq⟩
  | panicked h1 h2 => intro hf _ _ _; exact ⟨.panicked (by rw [← hf _ (by simp)]; exact h1) h2, fun l hl => by cases hl⟩
  | step h1 h2 h3 h4 _ ih =>
    intro hf all ha hi
    obtain ⟨k1, k2⟩ := ih (fun p hp => hf p (by simp [hp])) all (fun p hp => ha p (by simp [hp])) (fun q hq => by
      rcases union_mem hq with hq | hq
      · exact hi q (h4.mem_iff.1 hq)
      · rw [pointers_path h2 q (h3.mem_iff.1 hq)]; exact ha _ (by simp))
    exact ⟨.step (by rw [← hf _ (by simp)]; exact h1) h2 h3 h4 k1, k2⟩

theorem emit_congr {files files' : Path → Option MFile} (ps : List (Ptr Path)) : ∀ (out : List (List U8)), (∀ q ∈ ps, files q.path = files' q.path) →
    Merger.emit files ps out = Merger.emit files' ps out := by
  induction ps with
  | nil => intros; rfl
  | cons q ps ih =>
    intro out h
    simp only [Merger.emit, h q (by simp)]
    split
    · rfl
    · split
      · rfl
      · exact ih _ fun q hq => h q (by simp [hq])

/-- `merge` only depends on the files named as inputs. -/
theorem merges_congr {b : Build} {τ : Epoch → Int} {m : Merger Path} {files files' : Path → Option MFile} (hf : ∀ p ∈ m.paths, files p = files' p)
    {r : Merger.MResult} (h : Merger.Merges b τ m files r) : Merger.Merges b τ m files' r := by
  cases h with
  | openFails h1 h2 => exact .openFails h1 (by rw [← hf _ h1]; exact h2)
  | @panicked visit h1 h2 h3 =>
    have hv : ∀ p ∈ visit, p ∈ m.paths := fun p hp => (Merger.mem_distinct _ _).1 (h2.mem_iff.1 hp)
    exact .panicked (fun p hp => by rw [← hf p hp]; exact h1 p hp) h2 (index_congr h3 (fun p hp => hf p (hv p hp)) m.paths hv (by simp)).1
  | @finished visit idx idx' h1 h2 h3 h4 =>
    have hv : ∀ p ∈ visit, p ∈ m.paths := fun p hp => (Merger.mem_distinct _ _).1 (h2.mem_iff.1 hp)
    obtain ⟨k1, k2⟩ := index_congr h3 (fun p hp => hf p (hv p hp)) m.paths hv (by simp)
    rw [emit_congr _ [] (files' := files') fun q hq => hf _ (k2 idx rfl q (h4.mem_iff.1 ((List.mergeSort_perm _ _).mem_iff.1 hq)))]
    exact .finished (fun p hp => by rw [← hf p hp]; exact h1 p hp) h2 k1 h4

theorem mergerOf_paths (micros : Epoch → Nat) (a : MergeArgs Path) (ord : List U16) : (mergerOf micros a ord).paths = a.inputs := by
  cases hfr : a.from? <;> cases hto : a.to? <;> simp [mergerOf, hfr, hto, Merger.withApids, Merger.withApidOrder, Merger.withFrom, Merger.withTo, Merger.new]

/-- C64 holds for `merge` if the output is not an input. -/
theorem C64_merge_partial (b : Build) (τ : Epoch → Int) (micros : Epoch → Nat) (sched : Path → List U8 → Reader) (a : MergeArgs Path) (fs fs' : FS Path)
    (hio : a.output ∉ a.inputs) (h : MergeRun b τ micros sched a fs .ok fs') :
    ∃ ord w, orderOf a = some ord ∧ Merger.Merges b τ (mergerOf micros a ord) (fs.files sched) (.ok w) ∧ fs' = fs.put a.output w.flatten := by
  generalize hst : Status.ok = st at h
  cases h with
  | exists_ | badName | createFails | noInputs => cases hst
  | @ran ord res h1 h2 h3 hm =>
    cases res with
    | panic => cases hst
    | error w => cases hst
    | ok w =>
      refine ⟨ord, w, h2, merges_congr ?_ hm, rfl⟩
      intro p hp
      rw [mergerOf_paths] at hp
      have : p ≠ a.output := fun e => hio (e ▸ hp)
      simp [FS.files, FS.put, this]

/-- If it is, the packets of that input are lost: what is written are groups of the other inputs. -/
theorem C64_merge_in_place (b : Build) (τ : Epoch → Int) (micros : Epoch → Nat) (sched : Path → List U8 → Reader) (hs : Faithful sched)
    (a : MergeArgs Path) (fs fs' : FS Path) (h : MergeRun b τ micros sched a fs .ok fs') :
    ∃ (ord : List U16) (entries : List (Entry Path)), orderOf a = some ord ∧ fs' = fs.put a.output (entries.map Entry.bytes).flatten ∧
      ∀ e ∈ entries, Inputs b τ (mergerOf micros a ord) ((fs.put a.output []).files sched) e ∧ e.path ≠ a.output := by
  generalize hst : Status.ok = st at h
  cases h with
  | exists_ | badName | createFails | noInputs => cases hst
  | @ran ord res h1 h2 h3 hm =>
    cases res with
    | panic => cases hst
    | error w => cases hst
    | ok w =>
      obtain ⟨es, he⟩ := C21_merge b τ _ _ (files_readable _ sched hs) w hm
      refine ⟨ord, es, h2, by rw [← he.bytes]; rfl, fun e hin => ⟨he.inputs e hin, fun hp => ?_⟩⟩
      obtain ⟨_, f, gs, g1, g2, g3, _⟩ := he.inputs e hin
      rw [hp] at g1
      simp only [FS.files, FS.put, if_true, Option.map_some, Option.some.injEq] at g1
      subst g1
      obtain ⟨ps, s, s', c1, c2⟩ := g2
      have := decodes_empty (hs a.output [])
      obtain ⟨s1, this⟩ := this
      have := (c1.unique this).1
      have hps : ps = [] := by simpa using this
      subst hps
      have hg : Collects PacketGroupIter.next (PacketGroupIter.new []) [] (some ⟨[], none, true⟩) := .done rfl
      have := (c2.unique hg).1
      have : gs = [] := by simpa using this
      subst this
      cases g3

/-! ### Witnesses -/
namespace CommandEx

def sched : Nat → List U8 → Reader := fun _ c => if c = [] then ⟨[], .eof⟩ else Reader.ofBytes c
theorem faithful : Faithful sched := by
  intro p c
  unfold sched
  split
  · subst_vars; exact ⟨by simp, rfl, rfl⟩
  · rename_i hc
    refine ⟨?_, by simp [Reader.ofBytes, evBytes, Ev.bytes], rfl⟩
    intro e he
    simp only [Reader.ofBytes, List.mem_singleton] at he
    exact .inl ⟨c, hc, he⟩

/-- Two files with one packet (of APID 1) each. -/
def disk : FS Nat := fun p => if p < 2 then some FilterEx.early else none

def inPlace : FilterArgs Nat := ⟨0, 0, true, [['1']], [], none, none⟩
def badRange : FilterArgs Nat := ⟨0, 1, true, [['x']], [], none, none⟩
def fine : FilterArgs Nat := ⟨0, 2, false, [['1']], [], none, none⟩
def refused : FilterArgs Nat := { fine with output := 1 }

theorem parse1 : Ranges.parse RangesEx.ascii [['1']] = some [1] := by decide +kernel
theorem parse0 : Ranges.parse RangesEx.ascii [] = some [] := rfl
theorem decodes1 : Decodes (sched 0 FilterEx.early) [FilterEx.earlyPkt 0] := ⟨_, .step rfl (.done rfl)⟩
theorem decodes0 : Decodes (sched 0 []) [] := ⟨_, .done rfl⟩
theorem hτ : FilterEx.tau Filter.minEpoch < FilterEx.tau Filter.maxEpoch := by decide

theorem run_inPlace (b : Build) : FilterRun b FilterEx.tau RangesEx.ascii sched inPlace disk .ok (disk.put 0 []) :=
  FilterRun.ran (a := inPlace) (fs := disk) (sched := sched) (ud := RangesEx.ascii) (content := []) (i := [1]) (e := []) (.inl rfl) (by decide) rfl
    parse1 parse0 ((C53_untimed b FilterEx.tau hτ _ [] decodes0 (Ranges.toU16 [1]) (Ranges.toU16 []) (.inl (by decide)) (.ok [])).2 rfl)

theorem run_fine (b : Build) : FilterRun b FilterEx.tau RangesEx.ascii sched fine disk .ok (disk.put 2 FilterEx.early) := by
  have h := FilterRun.ran (a := fine) (fs := disk) (sched := sched) (ud := RangesEx.ascii) (content := FilterEx.early) (i := [1]) (e := [])
    (.inr rfl) (by decide) rfl parse1 parse0 ((C53_untimed b FilterEx.tau hτ _ _ decodes1 _ _ (.inl (by decide)) (.ok [FilterEx.early])).2 (by decide +kernel))
  simpa [filterEnd, fine] using h

theorem run_bad (b : Build) : FilterRun b FilterEx.tau RangesEx.ascii sched badRange disk .error (disk.put 1 []) :=
  .badArgs (.inl rfl) (by decide) (.inl (by decide +kernel))

end CommandEx

open CommandEx in
/-- A command that fails because of a bad argument has already emptied the output. -/
theorem C63_violated : ¬ C63_full := by
  intro h
  have := h.1 ⟨true⟩ _ _ _ _ _ _ _ faithful (run_bad _) (by decide)
  have := congrFun this 1
  simp [FS.put, disk, FilterEx.early] at this

open CommandEx in
/-- Filtering a file in place loses its content. -/
theorem C64_violated : ¬ C64_full := by
  intro h
  obtain ⟨c, i, e, w, h1, h2, h3, h4, h5⟩ := h.1 ⟨true⟩ _ _ _ _ _ _ faithful (run_inPlace _)
  cases h1
  rw [show inPlace.incl = [['1']] from rfl, parse1] at h2
  rw [show inPlace.excl = [] from rfl, parse0] at h3
  cases h2
  cases h3
  have := (C53_untimed ⟨true⟩ FilterEx.tau hτ _ _ decodes1 _ _ (.inl (by decide)) (.ok w)).1 h4
  cases this
  revert h5
  decide +kernel

/-- A run that succeeds, one that is refused, and one that fails after the output was created. -/
example (b : Build) : FilterRun b FilterEx.tau RangesEx.ascii CommandEx.sched CommandEx.fine CommandEx.disk .ok (CommandEx.disk.put 2 FilterEx.early) ∧
    FilterRun b FilterEx.tau RangesEx.ascii CommandEx.sched CommandEx.refused CommandEx.disk .error CommandEx.disk ∧
    FilterRun b FilterEx.tau RangesEx.ascii CommandEx.sched CommandEx.badRange CommandEx.disk .error (CommandEx.disk.put 1 []) :=
  ⟨CommandEx.run_fine b, .exists_ rfl (by decide), CommandEx.run_bad b⟩

end Ccsds
