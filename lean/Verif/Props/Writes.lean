import Verif.Model.Writer
import Verif.Props.FramingConfig
import Verif.Props.Commands
/-!
# C77: a command that succeeds has written everything; C78: `ccsds framing` and its files; C79: files it should leave alone
-/
namespace Ccsds
open Cmd

/-- The output never fails: every write takes at least one byte or is interrupted. -/
def Healthy (s : List WEv) : Prop := ∀ e ∈ s, (∃ n, 0 < n ∧ e = .accept n) ∨ e = .err .interrupted

/-- `write_all`: what was written is a prefix of the buffer, all of it if it succeeds, not all of it if it fails; it does not fail on a healthy output. -/
theorem C77_write_all (s : List WEv) (bs : List U8) :
    (writeAll s bs).2.1 <+: bs ∧ ((writeAll s bs).1 = true ↔ (writeAll s bs).2.1 = bs) ∧ (writeAll s bs).2.2 <:+ s ∧ (Healthy s → (writeAll s bs).1 = true) := by
  induction s generalizing bs with
  | nil =>
    cases bs with
    | nil => simp [writeAll]
    | cons b bs => simp [writeAll]
  | cons e s ih =>
    cases bs with
    | nil => simp [writeAll]
    | cons b bs =>
      cases e with
      | err k =>
        rw [writeAll]
        · split
          · rename_i hk
            obtain ⟨h1, h2, h3, h4⟩ := ih (b :: bs)
            exact ⟨h1, h2, h3.trans (List.suffix_cons _ _), fun hh => h4 fun x hx => hh x (by simp [hx])⟩
          · rename_i hk
            refine ⟨List.nil_prefix, by simp, List.suffix_cons _ _, fun hh => ?_⟩
            rcases hh (.err k) (by simp) with ⟨n, _, h⟩ | h
            · cases h
            · cases h; exact absurd rfl hk
        · simp
      | accept n =>
        rw [writeAll]
        · split
          · rename_i hn
            refine ⟨List.nil_prefix, by simp, List.suffix_cons _ _, fun hh => ?_⟩
            rcases hh (.accept n) (by simp) with ⟨m, hm, h⟩ | h
            · cases h; omega
            · cases h
          · rename_i hn
            split
            · exact ⟨List.prefix_refl _, by simp, List.suffix_cons _ _, fun _ => rfl⟩
            · obtain ⟨h1, h2, h3, h4⟩ := ih ((b :: bs).drop n)
              refine ⟨?_, ?_, h3.trans (List.suffix_cons _ _), fun hh => h4 fun x hx => hh x (by simp [hx])⟩
              · show (b :: bs).take n ++ _ <+: _
                conv => rhs; rw [← List.take_append_drop n (b :: bs)]
                exact (List.prefix_append_right_inj _).2 h1
              · show (writeAll s ((b :: bs).drop n)).1 = true ↔ (b :: bs).take n ++ (writeAll s ((b :: bs).drop n)).2.1 = b :: bs
                rw [h2]
                constructor
                · intro e; rw [e, List.take_append_drop]
                · intro e
                  have e' : (b :: bs).take n ++ (writeAll s ((b :: bs).drop n)).2.1 = (b :: bs).take n ++ (b :: bs).drop n := by rw [e, List.take_append_drop]
                  exact List.append_cancel_left e'
        · simp

theorem writeAll_ok {s s' : List WEv} {bs w : List U8} (h : writeAll s bs = (true, w, s')) : w = bs ∧ s' <:+ s := by
  obtain ⟨_, h2, h3, _⟩ := C77_write_all s bs
  rw [h] at h2 h3
  exact ⟨h2.1 rfl, h3⟩

theorem writeAll_fail {s s' : List WEv} {bs w : List U8} (h : writeAll s bs = (false, w, s')) : w <+: bs ∧ ¬ Healthy s := by
  obtain ⟨h1, _, _, h4⟩ := C77_write_all s bs
  rw [h] at h1 h4
  exact ⟨h1, fun hh => by simpa using h4 hh⟩

theorem Healthy.suffix {s s' : List WEv} (h : Healthy s) (e : s' <:+ s) : Healthy s' := fun x hx => h x (e.subset hx)

/-! ## filter -/

theorem filter_loopW (τ : Epoch → Int) (incl excl : List U16) (before after : Option Epoch) (items : List Filter.Item) : ∀ (s : List WEv),
    (Filter.loopW τ incl excl before after s items).2 <+: (Filter.writes τ incl excl before after items).flatten ∧
    ((Filter.loopW τ incl excl before after s items).1 = true →
      (Filter.loopW τ incl excl before after s items).2 = (Filter.writes τ incl excl before after items).flatten) ∧
    (Healthy s → (Filter.loopW τ incl excl before after s items).1 = true) := by
  induction items with
  | nil => intro s; exact ⟨List.nil_prefix, fun _ => rfl, fun _ => rfl⟩
  | cons i is ih =>
    intro s
    unfold Filter.loopW
    by_cases hk : Filter.keep τ incl excl before after i = true
    · have hw : Filter.writes τ incl excl before after (i :: is) = i.data :: Filter.writes τ incl excl before after is := by simp [Filter.writes, hk]
      rw [if_pos hk, hw, List.flatten_cons]
      split
      · rename_i w s' e
        obtain ⟨h1, h2⟩ := writeAll_fail e
        exact ⟨h1.trans (List.prefix_append _ _), by simp, fun h => absurd h h2⟩
      · rename_i w s' e
        obtain ⟨rfl, h2⟩ := writeAll_ok e
        obtain ⟨a, b, c⟩ := ih s'
        refine ⟨(List.prefix_append_right_inj _).2 a, fun h => ?_, fun h => c (h.suffix h2)⟩
        show i.data ++ _ = _
        rw [b h]
    · have hw : Filter.writes τ incl excl before after (i :: is) = Filter.writes τ incl excl before after is := by simp [Filter.writes, hk]
      rw [if_neg hk, hw]
      exact ih s

variable {Path : Type}

/-- The result of a command on an output that can fail, against a result (`st0`, `fs0`) of the same command on one that cannot: the same, or an error with the beginning of
the output written; all other files alike. On a healthy output the same. -/
structure Cut (out : Path) (s : List WEv) (st : Status) (fs' : FS Path) (st0 : Status) (fs0 : FS Path) : Prop where
  others : ∀ p, p ≠ out → fs' p = fs0 p
  status : (st = st0 ∧ fs' = fs0) ∨ (st = .error ∧ ¬ Healthy s ∧ ∃ c c0, fs' out = some c ∧ fs0 out = some c0 ∧ c <+: c0)

theorem Cut.same (out : Path) (s : List WEv) (st : Status) (fs : FS Path) : Cut out s st fs st fs := ⟨fun _ _ => rfl, .inl ⟨rfl, rfl⟩⟩

theorem Cut.put [DecidableEq Path] {out : Path} {s : List WEv} {fs : FS Path} {c c0 : List U8} {st0 : Status} (h : ¬ Healthy s) (hc : c <+: c0) :
    Cut out s .error (fs.put out c) st0 (fs.put out c0) :=
  ⟨fun p hp => by simp [FS.put, hp], .inr ⟨rfl, h, c, c0, by simp [FS.put], by simp [FS.put], hc⟩⟩

/-- C77, `ccsds filter`: whatever the output does, the command does what it would do with an output that never fails, or it reports an error, having written a
beginning of what it should have written. In particular, success means everything was written. -/
theorem C77_filter [DecidableEq Path] (b : Build) (τ : Epoch → Int) (ud : Char → Bool) (sched : Path → List U8 → Reader) (a : FilterArgs Path) (fs fs' : FS Path) (s : List WEv)
    (st : Status) (h : FilterRunW b τ ud sched a fs s st fs') : ∃ st0 fs0, FilterRun b τ ud sched a fs st0 fs0 ∧ Cut a.output s st fs' st0 fs0 := by
  cases h with
  | exists_ h1 h2 => exact ⟨_, _, .exists_ h1 h2, .same _ _ _ _⟩
  | noInput h1 h2 => exact ⟨_, _, .noInput h1 h2, .same _ _ _ _⟩
  | createFails h1 h2 => exact ⟨_, _, .createFails h1 h2, .same _ _ _ _⟩
  | badArgs h1 h2 h3 => exact ⟨_, _, .badArgs h1 h2 h3, .same _ _ _ _⟩
  | noFilters h1 h2 h3 h4 h5 h6 h7 h8 =>
    obtain ⟨c, hc⟩ : ∃ c, (fs.put a.output []) a.input = some c := by
      unfold FS.put
      split
      · exact ⟨_, rfl⟩
      · exact Option.ne_none_iff_exists'.1 h2
    exact ⟨_, _, .ran h1 h2 hc h3 h4 (.noFilters h5 h6 h7 h8), .same _ _ _ _⟩
  | @ran content i e items ends ok w h1 h2 h3 h4 h5 h6 h7 h8 =>
    have hr := FilterRun.ran (b := b) (τ := τ) h1 h2 h3 h4 h5 (.run h6 h7)
    obtain ⟨x, y, z⟩ := filter_loopW τ (Ranges.toU16 i) (Ranges.toU16 e) a.before a.after items s
    rw [h8] at x y z
    refine ⟨_, _, hr, ?_⟩
    cases ok with
    | true =>
      have y := y rfl
      dsimp only at y
      cases ends <;> simp only [y, filterEnd, Bool.not_true, if_true, if_false, Bool.false_eq_true] <;> exact .same _ _ _ _
    | false =>
      have hn : ¬ Healthy s := fun hh => by simpa using z hh
      have : (filterEnd (if ends then .ok (Filter.writes τ (Ranges.toU16 i) (Ranges.toU16 e) a.before a.after items)
          else .panic (Filter.writes τ (Ranges.toU16 i) (Ranges.toU16 e) a.before a.after items))).2 =
          Filter.writes τ (Ranges.toU16 i) (Ranges.toU16 e) a.before a.after items := by cases ends <;> rfl
      simp only [Bool.not_false, if_true]
      rw [this]
      exact .put hn x

/-- Conversely, every result on an output that never fails becomes a result on the output `s`. -/
theorem C77_filter_total [DecidableEq Path] (b : Build) (τ : Epoch → Int) (ud : Char → Bool) (sched : Path → List U8 → Reader) (a : FilterArgs Path) (fs fs0 : FS Path) (s : List WEv)
    (st0 : Status) (h : FilterRun b τ ud sched a fs st0 fs0) : ∃ st fs', FilterRunW b τ ud sched a fs s st fs' ∧ Cut a.output s st fs' st0 fs0 := by
  cases h with
  | exists_ h1 h2 => exact ⟨_, _, .exists_ h1 h2, .same _ _ _ _⟩
  | noInput h1 h2 => exact ⟨_, _, .noInput h1 h2, .same _ _ _ _⟩
  | createFails h1 h2 => exact ⟨_, _, .createFails h1 h2, .same _ _ _ _⟩
  | badArgs h1 h2 h3 => exact ⟨_, _, .badArgs h1 h2 h3, .same _ _ _ _⟩
  | @ran content i e res h1 h2 h3 h4 h5 hr =>
    cases hr with
    | noFilters h6 h7 h8 h9 => exact ⟨_, _, .noFilters h1 h2 h4 h5 h6 h7 h8 h9, .same _ _ _ _⟩
    | @run items ends h6 h7 =>
      have hw := FilterRunW.ran (s := s) (τ := τ) h1 h2 h3 h4 h5 h6 h7 rfl
      obtain ⟨x, y, z⟩ := filter_loopW τ (Ranges.toU16 i) (Ranges.toU16 e) a.before a.after items s
      refine ⟨_, _, hw, ?_⟩
      have : (filterEnd (if ends then .ok (Filter.writes τ (Ranges.toU16 i) (Ranges.toU16 e) a.before a.after items)
          else .panic (Filter.writes τ (Ranges.toU16 i) (Ranges.toU16 e) a.before a.after items))).2 =
          Filter.writes τ (Ranges.toU16 i) (Ranges.toU16 e) a.before a.after items := by cases ends <;> rfl
      rw [this]
      cases hok : (Filter.loopW τ (Ranges.toU16 i) (Ranges.toU16 e) a.before a.after s items).1 with
      | true =>
        rw [y hok]
        cases ends <;> exact .same _ _ _ _
      | false =>
        have hn : ¬ Healthy s := fun hh => by rw [z hh] at hok; cases hok
        simp only [Bool.not_false, if_true]
        exact .put hn x

/-! ## merge -/

theorem merge_emitW (files : Path → Option MFile) (ps : List (Ptr Path)) : ∀ (s : List WEv) (out : List (List U8)),
    Merger.emitW files s ps out = Merger.emit files ps out ∨
    (¬ Healthy s ∧ ∃ w, Merger.emitW files s ps out = .error w ∧
      ((∃ w0, (Merger.emit files ps out = .ok w0 ∨ Merger.emit files ps out = .error w0) ∧ w.flatten <+: w0.flatten) ∨ Merger.emit files ps out = .panic)) := by
  have mono : ∀ (ps : List (Ptr Path)) (out w : List (List U8)), Merger.emit files ps out = .ok w ∨ Merger.emit files ps out = .error w →
      out <+: w := by
    intro ps
    induction ps with
    | nil => intro out w h; rcases h with h | h <;> cases h; exact List.prefix_refl _
    | cons p ps ih =>
      intro out w h
      unfold Merger.emit at h
      cases hf : files p.path with
      | none => rw [hf] at h; rcases h with h | h <;> cases h
      | some f =>
        rw [hf] at h
        dsimp only at h
        split at h
        · rcases h with h | h <;> cases h; exact List.prefix_refl _
        · exact (List.prefix_append _ _).trans (ih _ _ h)
  induction ps with
  | nil => intro s out; exact .inl rfl
  | cons p ps ih =>
    intro s out
    rw [Merger.emitW, Merger.emit]
    cases hf : files p.path with
    | none => exact .inl rfl
    | some f =>
      dsimp only
      by_cases hs : ((f.content.drop p.offset).take p.size).length < p.size
      · simp only [hs, if_true]; exact .inl trivial
      · simp only [hs, if_false]
        generalize ((f.content.drop p.offset).take p.size) = buf
        rcases hw : writeAll s buf with ⟨ok, w, s'⟩
        cases ok with
        | true =>
          obtain ⟨rfl, h2⟩ := writeAll_ok hw
          dsimp only
          rcases ih s' (out ++ [w]) with h | ⟨h, h'⟩
          · exact .inl h
          · exact .inr ⟨fun hh => h (hh.suffix h2), h'⟩
        | false =>
          obtain ⟨h1, h2⟩ := writeAll_fail hw
          refine .inr ⟨h2, _, rfl, ?_⟩
          cases he : Merger.emit files ps (out ++ [buf]) with
          | panic => exact .inr rfl
          | error w0 =>
            refine .inl ⟨w0, .inr rfl, ?_⟩
            obtain ⟨t, rfl⟩ := mono _ _ _ (.inr he)
            simp only [List.flatten_append, List.flatten_cons, List.flatten_nil, List.append_nil, List.append_assoc]
            exact (List.prefix_append_right_inj _).2 (h1.trans (List.prefix_append _ _))
          | ok w0 =>
            refine .inl ⟨w0, .inl rfl, ?_⟩
            obtain ⟨t, rfl⟩ := mono _ _ _ (.inl he)
            simp only [List.flatten_append, List.flatten_cons, List.flatten_nil, List.append_nil, List.append_assoc]
            exact (List.prefix_append_right_inj _).2 (h1.trans (List.prefix_append _ _))

variable [DecidableEq Path]

theorem pointersLoop_paths (b : Build) (τ : Epoch → Int) (m : Merger Path) (path : Path) (gs : List PacketGroup) : ∀ (acc r : List (Ptr Path)),
    m.pointersLoop b τ path gs acc = .ret r → (∀ q ∈ acc, q.path = path) → ∀ q ∈ r, q.path = path := by
  induction gs with
  | nil => intro acc r h ha; cases h; exact ha
  | cons g gs ih =>
    intro acc r h ha
    unfold Merger.pointersLoop at h
    cases hp : m.pointer b τ path g with
    | panic => rw [hp] at h; cases h
    | ret o =>
      rw [hp] at h
      cases o with
      | none => exact ih acc r h ha
      | some p =>
        refine ih _ r h ?_
        intro q hq
        rcases Ptr.insert_mem τ acc p q hq with hq | rfl
        · exact ha q hq
        · obtain ⟨_, _, _, _, e⟩ := Merger.pointer_some hp
          rw [e]; rfl

omit [DecidableEq Path] in
theorem union_subset (τ : Epoch → Int) (a c : List (Ptr Path)) : ∀ q ∈ Ptr.union τ a c, q ∈ a ∨ q ∈ c := by
  intro q hq
  unfold Ptr.union at hq
  split at hq <;> rcases List.mem_append.1 hq with h | h
  · exact .inl h
  · exact .inr (List.mem_filter.1 h).1
  · exact .inr h
  · exact .inl (List.mem_filter.1 h).1

theorem index_paths {b : Build} {τ : Epoch → Int} {m : Merger Path} {files : Path → Option MFile} {visit : List Path} {acc : List (Ptr Path)}
    {r : Option (List (Ptr Path))} (h : Merger.Index b τ m files visit acc r) : (∀ q ∈ acc, files q.path ≠ none) → ∀ idx, r = some idx →
    ∀ q ∈ idx, files q.path ≠ none := by
  induction h with
  | done => intro ha idx e; cases e; exact ha
  | panicked => intro _ idx e; cases e
  | @step p ps f idx0 idx' new new' r hf hp hn hi _ ih =>
    intro ha idx e
    refine ih ?_ idx e
    intro q hq
    rcases union_subset τ _ _ q hq with hq | hq
    · exact ha q (hi.mem_iff.1 hq)
    · obtain ⟨items, e, _, gitems, s, _, hr⟩ := hp
      split at hr
      · rename_i heq _
        cases hr
        have := pointersLoop_paths b τ m p _ _ _ heq (by simp) q (hn.mem_iff.1 hq)
        rw [this, hf]
        simp
      · cases hr

omit [DecidableEq Path] in
theorem emit_no_panic (files : Path → Option MFile) (ps : List (Ptr Path)) (h : ∀ q ∈ ps, files q.path ≠ none) : ∀ out, Merger.emit files ps out ≠ .panic := by
  induction ps with
  | nil => intro out h; cases h
  | cons p ps ih =>
    intro out hh
    unfold Merger.emit at hh
    cases hf : files p.path with
    | none => exact h p (by simp) hf
    | some f =>
      rw [hf] at hh
      dsimp only at hh
      split at hh
      · cases hh
      · exact ih (fun q hq => h q (by simp [hq])) _ hh

/-- C77, `ccsds merge`. -/
theorem C77_merge (b : Build) (τ : Epoch → Int) (micros : Epoch → Nat) (sched : Path → List U8 → Reader) (a : MergeArgs Path) (fs fs' : FS Path) (s : List WEv)
    (st : Status) (h : MergeRunW b τ micros sched a fs s st fs') : ∃ st0 fs0, MergeRun b τ micros sched a fs st0 fs0 ∧ Cut a.output s st fs' st0 fs0 := by
  cases h with
  | exists_ h1 h2 => exact ⟨_, _, .exists_ h1 h2, .same _ _ _ _⟩
  | badName h1 h2 => exact ⟨_, _, .badName h1 h2, .same _ _ _ _⟩
  | createFails h1 h2 => exact ⟨_, _, .createFails h1 h2, .same _ _ _ _⟩
  | noInputs h1 h2 h3 => exact ⟨_, _, .noInputs h1 h2 h3, .same _ _ _ _⟩
  | @ran ord res h1 h2 h3 hm =>
    cases hm with
    | openFails h4 h5 => exact ⟨_, _, .ran h1 h2 h3 (.openFails h4 h5), .same _ _ _ _⟩
    | panicked h4 h5 h6 => exact ⟨_, _, .ran h1 h2 h3 (.panicked h4 h5 h6), .same _ _ _ _⟩
    | @finished visit idx idx' h4 h5 h6 h7 =>
      refine ⟨_, _, .ran h1 h2 h3 (.finished h4 h5 h6 h7), ?_⟩
      have hp := index_paths h6 (by simp) idx rfl
      have hnp := emit_no_panic ((fs.put a.output []).files sched) (idx'.mergeSort (Ptr.le τ))
        (fun q hq => hp q (h7.mem_iff.1 (List.mem_mergeSort.1 hq))) []
      rcases merge_emitW ((fs.put a.output []).files sched) (idx'.mergeSort (Ptr.le τ)) s [] with e | ⟨hn, w, e, ⟨w0, e0, hw⟩ | e0⟩
      · rw [e]; exact .same _ _ _ _
      · rw [e]
        rcases e0 with e0 | e0 <;> rw [e0] <;> exact .put hn hw
      · exact absurd e0 hnp

/-- Conversely, every result of `merge` on an output that never fails becomes a result on the output `s`. -/
theorem C77_merge_total (b : Build) (τ : Epoch → Int) (micros : Epoch → Nat) (sched : Path → List U8 → Reader) (a : MergeArgs Path) (fs fs0 : FS Path)
    (s : List WEv) (st0 : Status) (h : MergeRun b τ micros sched a fs st0 fs0) :
    ∃ st fs', MergeRunW b τ micros sched a fs s st fs' ∧ Cut a.output s st fs' st0 fs0 := by
  cases h with
  | exists_ h1 h2 => exact ⟨_, _, .exists_ h1 h2, .same _ _ _ _⟩
  | badName h1 h2 => exact ⟨_, _, .badName h1 h2, .same _ _ _ _⟩
  | createFails h1 h2 => exact ⟨_, _, .createFails h1 h2, .same _ _ _ _⟩
  | noInputs h1 h2 h3 => exact ⟨_, _, .noInputs h1 h2 h3, .same _ _ _ _⟩
  | @ran ord res h1 h2 h3 hm =>
    cases hm with
    | openFails h4 h5 => exact ⟨_, _, .ran h1 h2 h3 (.openFails h4 h5), .same _ _ _ _⟩
    | panicked h4 h5 h6 => exact ⟨_, _, .ran h1 h2 h3 (.panicked h4 h5 h6), .same _ _ _ _⟩
    | @finished visit idx idx' h4 h5 h6 h7 =>
      refine ⟨_, _, .ran h1 h2 h3 (.finished h4 h5 h6 h7), ?_⟩
      have hp := index_paths h6 (by simp) idx rfl
      have hnp := emit_no_panic ((fs.put a.output []).files sched) (idx'.mergeSort (Ptr.le τ))
        (fun q hq => hp q (h7.mem_iff.1 (List.mem_mergeSort.1 hq))) []
      rcases merge_emitW ((fs.put a.output []).files sched) (idx'.mergeSort (Ptr.le τ)) s [] with e | ⟨hn, w, e, ⟨w0, e0, hw⟩ | e0⟩
      · rw [e]; exact .same _ _ _ _
      · rw [e]
        rcases e0 with e0 | e0 <;> rw [e0] <;> exact .put hn hw
      · exact absurd e0 hnp

/-! ## framing -/

open Framing

/-- The records for the frames `fs`. -/
def records (a : Args) (fs : List Frame) : List (List U8) :=
  if a.output then ((wanted a fs).filter fun f => decide (Acceptable f)).map (fun f => f.data.take a.length) else []

theorem records_cons (a : Args) (f : Frame) (fs : List Frame) : records a (f :: fs) = records a [f] ++ records a fs := by
  have : f :: fs = [f] ++ fs := rfl
  rw [this]
  unfold records wanted
  cases a.output
  · simp
  · simp only [List.filter_append, List.map_append, if_true]

theorem framing_loopW (a : Args) (fs : List Frame) : ∀ (s : List WEv) (st : Framing.State) (w : List U8) (old : List (List U8)),
    (∀ st' w', loopW a s st w fs = .done st' w' → w' = w ++ (records a fs).flatten ∧
      loop a { st with written := old } fs = .ret { st' with written := old ++ records a fs }) ∧
    (∀ w', loopW a s st w fs = .failed w' → ¬ Healthy s ∧ ∃ part, w' = w ++ part ∧ part <+: (records a fs).flatten) ∧
    (∀ w', loopW a s st w fs = .panicked w' → ¬ LongEnough a fs ∧ ∃ part, w' = w ++ part ∧ part <+: (records a fs).flatten) := by
  induction fs with
  | nil =>
    intro s st w old
    refine ⟨fun st' w' h => ?_, fun w' h => by (unfold loopW at h; cases h), fun w' h => by (unfold loopW at h; cases h)⟩
    unfold loopW at h
    cases h
    have : records a [] = [] := by unfold records wanted; simp
    rw [this]
    exact ⟨by simp, by simp [loop]⟩
  | cons f fs ih =>
    intro s st w old
    rw [records_cons]
    unfold loopW
    rw [loop, step]
    by_cases hsel : selected a f = true
    · simp only [hsel, Bool.not_true, Bool.false_eq_true, if_false]
      have hwant : Wanted a f := by have := selected_iff a f; rw [hsel] at this; exact of_decide_eq_true this.symm
      by_cases hwr : writable f = true ∧ a.output = true
      · simp only [hwr.1, hwr.2, Bool.not_true, Bool.false_eq_true, if_false]
        have hacc : Acceptable f := by
          have := hwr.1; revert this; unfold writable Acceptable; cases f.integrity with
          | none => simp
          | some i => cases i <;> simp
        have hrec : records a [f] = [f.data.take a.length] := by unfold records wanted; simp [hwr.2, hwant, hacc]
        rw [hrec]
        by_cases hl : f.data.length < a.length
        · simp only [hl, if_true]
          refine ⟨fun _ _ h => (by cases h), fun _ h => (by cases h), fun w' h => ?_⟩
          cases h
          refine ⟨fun hle => ?_, [], by simp, List.nil_prefix⟩
          have := hle hwr.2 f (by simp [wanted, hwant]) hacc
          omega
        · simp only [hl, if_false]
          rcases hw : writeAll s (f.data.take a.length) with ⟨ok, x, s'⟩
          cases ok with
          | false =>
            obtain ⟨h1, h2⟩ := writeAll_fail hw
            refine ⟨fun _ _ h => (by cases h), fun w' h => ?_, fun _ h => (by cases h)⟩
            cases h
            refine ⟨h2, x, rfl, ?_⟩
            simp only [List.cons_append, List.nil_append, List.flatten_cons]
            exact h1.trans (List.prefix_append _ _)
          | true =>
            obtain ⟨rfl, h2⟩ := writeAll_ok hw
            dsimp only
            obtain ⟨i1, i2, i3⟩ := ih s' _ (w ++ f.data.take a.length) (old ++ [f.data.take a.length])
            refine ⟨fun st' w' h => ?_, fun w' h => ?_, fun w' h => ?_⟩
            · obtain ⟨e1, e2⟩ := i1 _ _ h
              refine ⟨by rw [e1]; simp, ?_⟩
              simp only [List.append_assoc] at e2
              exact e2
            · obtain ⟨e1, part, e2, e3⟩ := i2 _ h
              refine ⟨fun hh => e1 (hh.suffix h2), f.data.take a.length ++ part, by rw [e2]; simp, ?_⟩
              simp only [List.cons_append, List.nil_append, List.flatten_cons]
              exact (List.prefix_append_right_inj _).2 e3
            · obtain ⟨e1, part, e2, e3⟩ := i3 _ h
              refine ⟨fun hh => e1 (fun ho g hg => hh ho g ?_), f.data.take a.length ++ part, by rw [e2]; simp, ?_⟩
              · simp only [wanted, List.filter_cons] at hg ⊢
                split <;> simp [hg]
              · simp only [List.cons_append, List.nil_append, List.flatten_cons]
                exact (List.prefix_append_right_inj _).2 e3
      · have hrec : records a [f] = [] := by
          unfold records wanted
          by_cases ho : a.output = true
          · have : ¬ Acceptable f := by
              have : ¬ writable f = true := fun h => hwr ⟨h, ho⟩
              revert this; unfold writable Acceptable; cases f.integrity with
              | none => simp
              | some i => cases i <;> simp
            simp [ho, hwant, this]
          · simp [ho]
        rw [hrec, List.nil_append]
        have hno : (!writable f) = true ∨ (writable f = true ∧ (!a.output) = true) := by
          cases h1 : writable f <;> cases h2 : a.output <;> simp_all
        have keep : ¬ LongEnough a fs → ¬ LongEnough a (f :: fs) := by
          refine fun h1 hh => h1 (fun ho g hg => hh ho g ?_)
          simp only [wanted, List.filter_cons] at hg ⊢
          split <;> simp [hg]
        obtain ⟨i1, i2, i3⟩ := ih s { st with summary := st.summary.add f, vcids := (st.vcids.insert f.header.vcid
          ⟨f.header.vcid, ((st.vcids.get? f.header.vcid).getD ⟨0, .default⟩).tally.add f⟩) } w old
        rcases hno with h | ⟨h, h'⟩
        · simp only [h, if_true]
          exact ⟨i1, i2, fun w' h => ⟨keep (i3 w' h).1, (i3 w' h).2⟩⟩
        · simp only [h, h', Bool.not_true, Bool.false_eq_true, if_false, if_true]
          exact ⟨i1, i2, fun w' h => ⟨keep (i3 w' h).1, (i3 w' h).2⟩⟩
    · have hsel : selected a f = false := by simpa using hsel
      have hwant : ¬ Wanted a f := by have := selected_iff a f; rw [hsel] at this; exact of_decide_eq_false this.symm
      have hrec : records a [f] = [] := by unfold records wanted; simp [hwant]
      have keep : ¬ LongEnough a fs → ¬ LongEnough a (f :: fs) := by
        refine fun h1 hh => h1 (fun ho g hg => hh ho g ?_)
        simp only [wanted, List.filter_cons] at hg ⊢
        split <;> simp [hg]
      simp only [hsel, Bool.not_false, if_true, hrec, List.nil_append]
      obtain ⟨i1, i2, i3⟩ := ih s st w old
      exact ⟨i1, i2, fun w' h => ⟨keep (i3 w' h).1, (i3 w' h).2⟩⟩

/-- A summary is returned only at the end of the frames, and then everything is as with an output that cannot fail. -/
theorem framing_runsW {b : Build} {k : Codec} {a : Args} {workers : Nat} {r : Reader} {s : List WEv} {sm : Framing.Summary} {w : List U8} {p : Bool}
    (h : RunsW b k a workers r s (some sm) p w) : p = false ∧ ∃ ws, Runs b k a workers r sm ws ∧ w = ws.flatten := by
  generalize ho : some sm = o at h
  cases h with
  | failed | panicked | died => cases ho
  | @done frames st w infos h1 h2 h3 =>
    cases ho
    refine ⟨rfl, records a frames, ?_, ?_⟩
    · obtain ⟨e1, e2⟩ := (framing_loopW a frames s ⟨.default, [], []⟩ [] []).1 _ _ h2
      have hf : Finishes a frames ⟨st.summary, infos.mergeSort (fun x y => x.vcid ≤ y.vcid)⟩ (records a frames) := by
        have := Finishes.mk (infos := infos) e2 h3
        simpa using this
      generalize he : SourceEnd.ended = e at h1
      cases h1 with
      | @plain _ ended hn hy =>
        cases ended
        · cases he
        · exact .plain hn hy hf
      | @rs il st hs hy =>
        refine .rs hs hy ?_ hf
        split at he
        · cases he
        · split at he
          · assumption
          · cases he
    · have := ((framing_loopW a frames s ⟨.default, [], []⟩ [] []).1 _ _ h2).1
      simpa using this

/-- No summary: either the output failed, or the process died (a panic); what was written are the first bytes of the records of the frames received. -/
theorem framing_runsW_none {b : Build} {k : Codec} {a : Args} {workers : Nat} {r : Reader} {s : List WEv} {w : List U8} {p : Bool}
    (h : RunsW b k a workers r s none p w) : (p = false → ¬ Healthy s) ∧ ∃ frames e, Source b k a workers r frames e ∧ w <+: (records a frames).flatten := by
  generalize ho : (none : Option Framing.Summary) = o at h
  cases h with
  | done => cases ho
  | @failed frames e w h1 h2 =>
    obtain ⟨x, part, e1, e2⟩ := (framing_loopW a frames s ⟨.default, [], []⟩ [] []).2.1 _ h2
    exact ⟨fun _ => x, _, _, h1, by rw [e1]; simpa using e2⟩
  | @panicked frames e w h1 h2 =>
    obtain ⟨x, part, e1, e2⟩ := (framing_loopW a frames s ⟨.default, [], []⟩ [] []).2.2 _ h2
    exact ⟨fun h => (by cases h), _, _, h1, by rw [e1]; simpa using e2⟩
  | @died frames st w h1 h2 =>
    have e := ((framing_loopW a frames s ⟨.default, [], []⟩ [] []).1 _ _ h2).1
    exact ⟨fun h => (by cases h), _, _, h1, by rw [e]; simp⟩

/-- On a healthy output every run on an output that cannot fail is possible (without Reed–Solomon). -/
theorem framing_runsW_of {b : Build} {k : Codec} {a : Args} {workers : Nat} {r : Reader} {s : List WEv} {sm : Framing.Summary} {ws : List (List U8)} (hs : Healthy s)
    (ha : a.reedSolomon = none) (h : Runs b k a workers r sm ws) : RunsW b k a workers r s (some sm) false ws.flatten := by
  cases h with
  | rs h1 => rw [ha] at h1; cases h1
  | @plain frames _ _ h1 h2 h3 =>
    cases h3 with
    | @mk st infos hl hp =>
      have hlong : LongEnough a frames := (C57_summary a frames).2.2.1.1 ⟨_, _, .mk hl hp⟩
      obtain ⟨i1, i2, i3⟩ := framing_loopW a frames s ⟨.default, [], []⟩ [] []
      cases hw : loopW a s ⟨.default, [], []⟩ [] frames with
      | failed w => exact absurd hs (i2 _ hw).1
      | panicked w => exact absurd hlong (i3 _ hw).1
      | done st' w =>
        obtain ⟨e1, e2⟩ := i1 _ _ hw
        rw [hl] at e2
        cases e2
        have := RunsW.done (b := b) (k := k) (workers := workers) (r := r) (.plain h1 h2) hw (infos := infos) hp
        rw [e1] at this
        simpa using this

/-! ## C78 -/

section Framing78

variable {b : Build} {k : Codec} {ud : Char → Bool} {parseCfg : List U8 → Option FramingConfig} {render : Framing.Summary → List U8} {workers : Nat}
  {env : Cmd.Inputs Path} {a : FramingArgs Path} {fs fs' : FS Path} {s : List WEv}

/-- C78: if `ccsds framing` succeeds, the arguments are valid, the configuration and the input could be read, the input was decoded to its end, and the files are the
old ones, with the output holding the records of that run (all of them) and the summary file its summary. -/
theorem C78_success (h : FramingCmd b k ud parseCfg render workers env a fs s .ok fs') :
    ∃ i e cfg r sm ws, Ranges.parse ud a.incl = some i ∧ Ranges.parse ud a.excl = some e ∧ configOf parseCfg fs a = some cfg ∧
      env.reader fs (fs.create a.output) a.input = some r ∧ Runs b k (framingArgs a cfg i e) workers r sm ws ∧
      fs' = (fs.fill a.output ws.flatten).fill a.summary (render sm) := by
  generalize hst : Status.ok = st at h
  cases h with
  | badArgs | noInput | badConfig | zeroLength | createFails => cases hst
  | @notFinished cfg i e r panicked w => cases panicked <;> cases hst
  | @finished cfg i e r sm w part ok created printed h1 h2 h3 h4 h5 h6 h7 h8 h9 h10 =>
    cases ok with
    | false => cases hst
    | true =>
      have hc := h10 rfl
      subst hc
      obtain ⟨_, ws, hr, rfl⟩ := framing_runsW h7
      refine ⟨i, e, cfg, r, sm, ws, h1, h2, h3, h6, hr, ?_⟩
      simp only [if_true]
      cases hs : a.summary with
      | none => rfl
      | some q => rw [(h8 (by simp [hs]) rfl).2 rfl]

/-- C78: whatever happens, no file but the output and the summary is touched; if the command fails, the summary file is as it was or holds a beginning of a summary,
and the output file, if it is not the summary file, is as it was or holds a beginning of the records of the frames received. -/
theorem C78_files {st : Status} (h : FramingCmd b k ud parseCfg render workers env a fs s st fs') :
    (∀ p, a.output ≠ some p → a.summary ≠ some p → fs' p = fs p) ∧
    (∀ p, a.output = some p → a.summary ≠ some p → fs' p = fs p ∨ ∃ i e cfg r frames en w, Ranges.parse ud a.incl = some i ∧ Ranges.parse ud a.excl = some e ∧
      configOf parseCfg fs a = some cfg ∧ env.reader fs (fs.create a.output) a.input = some r ∧
      Source b k (framingArgs a cfg i e) workers r frames en ∧ fs' p = some w ∧ w <+: (records (framingArgs a cfg i e) frames).flatten) ∧
    (∀ p, a.output ≠ some p → a.summary = some p → fs' p = fs p ∨ ∃ w sm, fs' p = some w ∧ w <+: render sm) := by
  have fill_ne : ∀ (g : FS Path) (o : Option Path) (w : List U8) (p : Path), o ≠ some p → (g.fill o w) p = g p := by
    intro g o w p ho
    cases o with
    | none => rfl
    | some q =>
      simp only [FS.fill, FS.put]
      rw [if_neg]
      rintro rfl
      exact ho rfl
  have fill_eq : ∀ (g : FS Path) (w : List U8) (p : Path), (g.fill (some p) w) p = some w := by
    intro g w p
    simp [FS.fill, FS.put]
  cases h with
  | badArgs | noInput | badConfig | zeroLength | createFails => exact ⟨fun _ _ _ => rfl, fun _ _ _ => .inl rfl, fun _ _ _ => .inl rfl⟩
  | @notFinished cfg i e r panicked w h1 h2 h3 h4 h5 h6 h7 =>
    obtain ⟨_, frames, en, hsrc, hw⟩ := framing_runsW_none h7
    refine ⟨fun p ho _ => fill_ne _ _ _ _ ho, fun p ho _ => .inr ⟨i, e, cfg, r, frames, en, w, h1, h2, h3, h6, hsrc, ?_, hw⟩, fun p ho _ => .inl (fill_ne _ _ _ _ ho)⟩
    rw [ho]; exact fill_eq _ _ _
  | @finished cfg i e r sm w part ok created printed h1 h2 h3 h4 h5 h6 h7 h8 h9 h10 =>
    refine ⟨fun p ho hs => ?_, fun p ho hs => .inr ?_, fun p ho hs => ?_⟩
    · split
      · rw [fill_ne _ _ _ _ hs, fill_ne _ _ _ _ ho]
      · rw [fill_ne _ _ _ _ ho]
    · have : ∃ frames en, Source b k (framingArgs a cfg i e) workers r frames en ∧ w <+: (records (framingArgs a cfg i e) frames).flatten := by
        generalize hx : some sm = o at h7
        cases h7 with
        | failed => cases hx
        | @done frames st w infos g1 g2 g3 =>
          exact ⟨frames, _, g1, by rw [((framing_loopW _ frames s ⟨.default, [], []⟩ [] []).1 _ _ g2).1]; simp⟩
      obtain ⟨frames, en, g1, g2⟩ := this
      refine ⟨i, e, cfg, r, frames, en, w, h1, h2, h3, h6, g1, ?_, g2⟩
      split
      · rw [fill_ne _ _ _ _ hs, ho]; exact fill_eq _ _ _
      · rw [ho]; exact fill_eq _ _ _
    · split
      · rename_i hc
        right
        refine ⟨part, sm, ?_, (h8 (by simp [hs]) hc).1⟩
        rw [hs]; exact fill_eq _ _ _
      · left; exact fill_ne _ _ _ _ ho

/-- C78: an error without a panic has a reason outside the program's control or in its arguments: they, the configuration or the input are unusable (nothing is changed then), or
a file could not be created, or the output failed; or the summary or the terminal could not be written after all records were. -/
theorem C78_error (h : FramingCmd b k ud parseCfg render workers env a fs s .error fs') (hs : Healthy s) :
    fs' = fs ∨ ∃ i e cfg r sm ws, Ranges.parse ud a.incl = some i ∧ Ranges.parse ud a.excl = some e ∧ configOf parseCfg fs a = some cfg ∧
      env.reader fs (fs.create a.output) a.input = some r ∧ Runs b k (framingArgs a cfg i e) workers r sm ws ∧
      (fs' = fs.fill a.output ws.flatten ∨ ∃ part, part <+: render sm ∧ fs' = (fs.fill a.output ws.flatten).fill a.summary part) := by
  generalize hst : Status.error = st at h
  cases h with
  | badArgs | noInput | badConfig | zeroLength | createFails => exact .inl rfl
  | @notFinished cfg i e r panicked w h1 h2 h3 h4 h5 h6 h7 =>
    cases panicked with
    | true => cases hst
    | false => exact absurd hs ((framing_runsW_none h7).1 rfl)
  | @finished cfg i e r sm w part ok created printed h1 h2 h3 h4 h5 h6 h7 h8 h9 h10 =>
    obtain ⟨_, ws, hr, rfl⟩ := framing_runsW h7
    refine .inr ⟨i, e, cfg, r, sm, ws, h1, h2, h3, h6, hr, ?_⟩
    cases created with
    | false => exact .inl rfl
    | true =>
      cases hsum : a.summary with
      | none => left; rfl
      | some q => exact .inr ⟨part, (h8 (by simp [hsum]) rfl).1, rfl⟩

/-! ## C79 -/

/-- Full statement: `ccsds framing`, which has no option to overwrite files, changes no file that exists; and `--output -` ("or '-' for stdout") names no file. -/
def C79_full : Prop := ∀ (b : Build) (k : Codec) (ud : Char → Bool) (parseCfg : List U8 → Option FramingConfig) (render : Framing.Summary → List U8) (workers : Nat)
  (env : Cmd.Inputs Nat) (a : FramingArgs Nat) (fs fs' : FS Nat) (s : List WEv) (st : Status), FramingCmd b k ud parseCfg render workers env a fs s st fs' →
  (∀ p, fs p ≠ none → fs' p = fs p) ∧ (a.output = some env.dash → a.summary ≠ some env.dash → fs' env.dash = fs env.dash)

/-- C79, the part that holds: if neither the output nor the summary exists, existing files are left alone, and "-" is left alone unless it is named. -/
theorem C79_partial {st : Status} (h : FramingCmd b k ud parseCfg render workers env a fs s st fs')
    (ho : ∀ p, a.output = some p → fs p = none) (hs : ∀ p, a.summary = some p → fs p = none) :
    (∀ p, fs p ≠ none → fs' p = fs p) ∧ (a.output ≠ some env.dash → a.summary ≠ some env.dash → fs' env.dash = fs env.dash) :=
  ⟨fun p hp => (C78_files h).1 p (fun e => hp (ho p e)) (fun e => hp (hs p e)), fun h1 h2 => (C78_files h).1 _ h1 h2⟩

/-- What happens: after success the named output has been replaced, whether it existed or not, and also if its name is "-". -/
theorem C79_overwrites {p : Path} (h : FramingCmd b k ud parseCfg render workers env a fs s .ok fs') (ho : a.output = some p) (hs : a.summary ≠ some p) :
    ∃ i e cfg r sm ws, Ranges.parse ud a.incl = some i ∧ Ranges.parse ud a.excl = some e ∧ configOf parseCfg fs a = some cfg ∧
      env.reader fs (fs.put p []) a.input = some r ∧ Runs b k (framingArgs a cfg i e) workers r sm ws ∧ fs' p = some ws.flatten := by
  obtain ⟨i, e, cfg, r, sm, ws, h1, h2, h3, h4, h5, rfl⟩ := C78_success h
  refine ⟨i, e, cfg, r, sm, ws, h1, h2, h3, by rwa [ho] at h4, h5, ?_⟩
  rw [ho]
  cases hq : a.summary with
  | none => simp [FS.fill, FS.put]
  | some q =>
    have : p ≠ q := by rintro rfl; exact hs hq
    simp [FS.fill, FS.put, this]

/-- The pipeline gets no frame out of an empty input. -/
theorem outputs_empty (c : Pipeline.Config) (r : Reader) (hr : Spec.Smooth r []) (frames : List Frame) (ended : Bool) (h : Pipeline.Outputs b c r frames ended) :
    frames = [] ∧ ended = true := by
  obtain ⟨items, s', h1, h2⟩ := C30_terminates r [] Sync.ASM c.blockLength hr (by decide)
  have : items = [] := by
    cases items with
    | nil => rfl
    | cons x xs =>
      have e : (x :: xs).length * (Sync.ASM.length + c.blockLength) = (xs.length * (Sync.ASM.length + c.blockLength)) + (Sync.ASM.length + c.blockLength) := by
        rw [List.length_cons, Nat.succ_mul]
      have e4 : Sync.ASM.length = 4 := rfl
      rw [e] at h2
      simp only [List.length_nil] at h2
      omega
  subst this
  cases h1 with
  | done hn =>
    exact C52_deterministic b c r frames [] ended true h ⟨_, .done (.done hn), rfl⟩

/-- C79: `ccsds framing` with its input file as output (which it does not refuse) destroys it: if the run succeeds, the file is empty. -/
theorem C79_in_place (h : FramingCmd b k ud parseCfg render workers env a fs s .ok fs') (ho : a.output = some a.input) (hd : a.input ≠ env.dash)
    (he : fs a.input ≠ none) (hs : a.summary ≠ some a.input) (hr : Spec.Smooth (env.sched a.input []) []) : fs' a.input = some [] := by
  generalize hst : Status.ok = st at h
  cases h with
  | badArgs | noInput | badConfig | zeroLength | createFails => cases hst
  | @notFinished cfg i e r panicked w => cases panicked <;> cases hst
  | @finished cfg i e r sm w part ok created printed h1 h2 h3 h4 h5 h6 h7 h8 h9 h10 =>
    have hrs : (framingArgs a cfg i e).reedSolomon = none := h5.elim id (fun x => absurd ho x)
    have : r = env.sched a.input [] := by
      rw [Inputs.reader, if_neg hd, if_pos he, ho] at h6
      simp [FS.create, FS.put] at h6
      exact h6.symm
    subst this
    obtain ⟨_, ws, hrun, rfl⟩ := framing_runsW h7
    have hws : ws.flatten = [] := by
      cases hrun with
      | rs h1 => rw [hrs] at h1; cases h1
      | @plain frames _ _ g1 g2 g3 =>
        obtain ⟨rfl, _⟩ := outputs_empty _ _ hr _ _ g2
        have := ((C57_summary _ _).1 _ _ g3).2
        rw [this]
        split <;> simp [wanted]
    have hne : ∀ (g : FS Path) (w : List U8), (g.fill a.summary w) a.input = g a.input := by
      intro g w
      cases hq : a.summary with
      | none => rfl
      | some q =>
        have : a.input ≠ q := by rintro rfl; exact hs hq
        simp [FS.fill, FS.put, this]
    rw [hws]
    split
    · rw [hne, ho]; simp [FS.fill, FS.put]
    · rw [ho]; simp [FS.fill, FS.put]

/-- C78: a run that succeeds has used the configuration file that was named, which could be read and understood. -/
theorem C78_config {p : Path} (h : FramingCmd b k ud parseCfg render workers env a fs s .ok fs') (hp : a.config = some p) :
    ∃ content c i e r sm ws, fs p = some content ∧ parseCfg content = some c ∧ Ranges.parse ud a.incl = some i ∧ Ranges.parse ud a.excl = some e ∧
      Runs b k (framingArgs a (some c) i e) workers r sm ws ∧ fs' = (fs.fill a.output ws.flatten).fill a.summary (render sm) := by
  obtain ⟨i, e, cfg, r, sm, ws, h1, h2, h3, h4, h5, h6⟩ := C78_success h
  unfold configOf at h3
  rw [hp] at h3
  simp only at h3
  cases hf : fs p with
  | none => rw [hf] at h3; cases h3
  | some content =>
    rw [hf] at h3
    simp only [Option.bind_some] at h3
    cases hc : parseCfg content with
    | none => rw [hc] at h3; cases h3
    | some c =>
      rw [hc] at h3
      cases h3
      exact ⟨content, c, i, e, r, sm, ws, rfl, hc, h1, h2, h5, h6⟩

end Framing78

namespace FramingCmdEx

/-- Two frames on standard input, the output file 1, and no summary file. -/
def args (out : Nat) : FramingArgs Nat := ⟨⟨8, true, true, none, false, false, 0, none, 16, [], [], false⟩, none, [], [], 0, some out, none⟩
def env : Cmd.Inputs Nat := ⟨0, exPipeReader, fun _ => none, fun _ c => .ofBytes c⟩
def disk : FS Nat := fun p => if p = 1 then some [7#8] else none

theorem run (b : Build) (k : Codec) (render : Framing.Summary → List U8) (out : Nat) (s : List WEv) (hs : Healthy s) :
    ∃ w, w.length = 16 ∧ FramingCmd b k (fun _ => false) (fun _ => none) render 1 env (args out) disk s .ok (disk.put out w) := by
  obtain ⟨frames, h1, h2⟩ := exPipe_outputs b
  have hl : frames.length = 2 := by simpa [exPipeFrames] using congrArg List.length h2
  let fa : Args := framingArgs (args out) none [] []
  have hlen : ∀ f ∈ frames, f.data.length = 8 := by
    have : frames.map (fun f => f.data.length) = [8, 8] := by
      have h3 : frames.map (fun f => f.data.length) = (frames.map (·.data)).map List.length := by simp
      rw [h3, h2]; decide +kernel
    intro f hf
    have : f.data.length ∈ frames.map (fun f => f.data.length) := List.mem_map.2 ⟨f, hf, rfl⟩
    simp_all
  have hint : ∀ f ∈ frames, f.integrity = none := by
    obtain ⟨e, hy, _⟩ := h1
    intro f hf
    exact Pipeline.yields_integrity hy f hf
  have hlong : LongEnough fa frames := by
    intro _ f hf _
    rw [hlen f (List.mem_filter.1 hf).1]
    exact Nat.le_refl _
  obtain ⟨k1, _, k3, _⟩ := C57_summary fa frames
  obtain ⟨sm, ws, hf⟩ := k3.2 hlong
  have hr : Runs b k fa 1 exPipeReader sm ws := .plain rfl h1 hf
  have hw : ws.flatten.length = 16 := by
    rw [(k1 sm ws hf).2, if_pos (show fa.output = true from rfl)]
    have e1 : wanted fa frames = frames := List.filter_eq_self.2 (fun f _ => by simp [Wanted, fa, framingArgs, args, Ranges.toU16])
    have e2 : frames.filter (fun f => decide (Acceptable f)) = frames := List.filter_eq_self.2 (fun f h => by simp [Acceptable, hint f h])
    rw [e1, e2, List.length_flatten, List.map_map]
    have e3 : frames.map (List.length ∘ fun f => f.data.take fa.length) = frames.map (fun _ => 8) := by
      refine List.map_congr_left fun f h => ?_
      show (f.data.take 8).length = 8
      rw [List.length_take, hlen f h]; rfl
    rw [e3]
    match frames, hl with
    | [_, _], _ => rfl
  refine ⟨ws.flatten, hw, ?_⟩
  exact FramingCmd.finished (part := []) (ok := true) (created := true) (printed := true) (sm := sm) (cfg := none) (i := []) (e := []) rfl rfl rfl (show (8 : Nat) ≠ 0 by decide) (.inl rfl) rfl
    (framing_runsW_of hs rfl hr) (by intro h; exact absurd rfl h) (fun _ => rfl) (fun _ => rfl)

end FramingCmdEx

open FramingCmdEx in
/-- C79 does not hold: an existing file is replaced, and the output "-" is a file. -/
theorem C79_violated : ¬ C79_full ∧ ∃ (fs' : FS Nat) (w : List U8),
    FramingCmd ⟨true⟩ ⟨fun _ => false, fun _ => (.ok, none)⟩ (fun _ => false) (fun _ => none) (fun _ => []) 1 env (args env.dash) disk [] .ok fs' ∧
    disk env.dash = none ∧ fs' env.dash = some w := by
  constructor
  · intro h
    obtain ⟨w, hw, hr⟩ := run ⟨true⟩ ⟨fun _ => false, fun _ => (.ok, none)⟩ (fun _ => []) 1 [] (by simp [Healthy])
    have := (h _ _ _ _ _ _ _ _ _ _ _ _ hr).1 1 (by simp [disk])
    simp only [FS.put, disk, if_true, Option.some.injEq] at this
    rw [this] at hw
    cases hw
  · obtain ⟨w, hw, hr⟩ := run ⟨true⟩ ⟨fun _ => false, fun _ => (.ok, none)⟩ (fun _ => []) 0 [] (by simp [Healthy])
    exact ⟨_, w, hr, rfl, by simp [FS.put, env]⟩

/-- The hypotheses of C78 and `C79_partial` are met: with a new output file, and an output that is interrupted and takes one byte, then five, the run succeeds. -/
example : ∃ w, w.length = 16 ∧ FramingCmd ⟨true⟩ ⟨fun _ => false, fun _ => (.ok, none)⟩ (fun _ => false) (fun _ => none) (fun _ => []) 1 FramingCmdEx.env
    (FramingCmdEx.args 2) FramingCmdEx.disk [.err .interrupted, .accept 1, .accept 5] .ok (FramingCmdEx.disk.put 2 w) :=
  FramingCmdEx.run _ _ _ 2 _ (by
    intro e he
    simp only [List.mem_cons, List.not_mem_nil, or_false] at he
    rcases he with rfl | rfl | rfl
    · exact .inr rfl
    · exact .inl ⟨1, by decide, rfl⟩
    · exact .inl ⟨5, by decide, rfl⟩)

namespace FramingCmdEx

/-- Input and output are the file 1; its configuration, the file 3, asks for frames of 8 bytes, randomized. -/
def inPlace : FramingArgs Nat := ⟨⟨0, true, true, none, false, false, 0, none, 16, [], [], false⟩, some 3, [], [], 1, some 1, none⟩
def envIn : Cmd.Inputs Nat := ⟨0, exPipeReader, fun _ => none, fun _ c => ⟨if c = [] then [] else [.data c], .eof⟩⟩
def diskIn : FS Nat := fun p => if p = 1 then some [7#8, 7#8, 7#8] else if p = 3 then some [1#8] else none
def cfgIn : FramingConfig := ⟨none, 157, 8, true, none⟩

theorem run_in_place (b : Build) (k : Codec) (render : Framing.Summary → List U8) :
    FramingCmd b k (fun _ => false) (fun _ => some cfgIn) render 1 envIn inPlace diskIn [] .ok (diskIn.put 1 []) := by
  let fa : Args := framingArgs inPlace (some cfgIn) [] []
  have hout : Pipeline.Outputs b (config fa 1) ⟨[], .eof⟩ [] true := by
    have hr : Spec.Smooth (⟨[], .eof⟩ : Reader) [] := ⟨by simp, by simp [evBytes], rfl⟩
    obtain ⟨items, s', h1, h2⟩ := C30_terminates ⟨[], .eof⟩ [] Sync.ASM (config fa 1).blockLength hr (by decide)
    cases h1 with
    | done hn => exact ⟨_, .done (.done hn), rfl⟩
    | step hn hc =>
      rename_i items
      rw [List.length_cons, Nat.succ_mul] at h2
      have e4 : Sync.ASM.length = 4 := rfl
      simp only [List.length_nil] at h2
      omega
  have hlong : LongEnough fa [] := by intro _ f hf; cases hf
  obtain ⟨k1, _, k3, _⟩ := C57_summary fa []
  obtain ⟨sm, ws, hf⟩ := k3.2 hlong
  have hr : Runs b k fa 1 ⟨[], .eof⟩ sm ws := .plain rfl hout hf
  have hw : ws.flatten = [] := by
    rw [(k1 sm ws hf).2]
    split <;> simp [wanted]
  have := FramingCmd.finished (parseCfg := fun _ => some cfgIn) (env := envIn) (a := inPlace) (fs := diskIn) (ud := fun _ => false) (render := render) (s := [])
    (part := []) (ok := true) (created := true) (printed := true) (sm := sm) (cfg := some cfgIn) (i := []) (e := []) rfl rfl rfl (show (8 : Nat) ≠ 0 by decide) (.inl rfl) rfl
    (framing_runsW_of (by simp [Healthy]) rfl hr) (by intro h; exact absurd rfl h) (fun _ => rfl) (fun _ => rfl)
  rw [hw] at this
  exact this

/-- The hypotheses of `C78_config` and `C79_in_place` are met by this run. -/
example (b : Build) (k : Codec) : ∃ fs', FramingCmd b k (fun _ => false) (fun _ => some cfgIn) (fun _ => []) 1 envIn inPlace diskIn [] .ok fs' ∧ fs' 1 = some [] ∧
    diskIn 1 ≠ some [] := by
  refine ⟨_, run_in_place b k _, ?_, by decide +kernel⟩
  exact C79_in_place (run_in_place b k (fun _ => [])) rfl (by decide) (by decide +kernel) (by decide) ⟨by simp [envIn, inPlace], by simp [envIn, inPlace, evBytes], rfl⟩

end FramingCmdEx

open CommandEx in
/-- The hypotheses of `C77_filter` are met by a run whose output takes three bytes and then fails: an error, and three bytes in the output file. -/
example (b : Build) : FilterRunW b FilterEx.tau RangesEx.ascii sched fine disk [.accept 3, .err (.other 28)] .error (disk.put 2 (FilterEx.early.take 3)) := by
  have hp : Filter.PacketsUntimed (sched 0 FilterEx.early) [⟨(FilterEx.earlyPkt 0).data, (FilterEx.earlyPkt 0).header.apid, Filter.minEpoch⟩] true :=
    ⟨[FilterEx.earlyPkt 0], _, .step rfl (.done rfl), rfl, rfl⟩
  exact FilterRunW.ran (a := fine) (fs := disk) (sched := sched) (ud := RangesEx.ascii) (content := FilterEx.early) (i := [1]) (e := []) (ok := false) (.inr rfl)
    (by decide) rfl parse1 parse0 (by decide) hp (by decide +kernel)

end Ccsds
