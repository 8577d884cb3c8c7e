import Verif.Model.Copying
import Verif.Props.Writes
import Verif.Props.MergeSteps
/-!
# C126: merging when the inputs cannot be read a second time

`merge` reads each input from its beginning to find the groups and then goes back to each group to copy it.  C126 says what is written when going back fails.
-/
namespace Ccsds
open Spec Merger

/-- The system never makes up bytes: what the reads at an offset deliver (until whatever happens) is what the file has there. -/
def Honest {Path : Type} (files : Path → Option MFile) (sys : Sys Path) : Prop :=
  ∀ i p off r f, sys i p off = .reads r → files p = some f → evBytes r.script <+: f.content.drop off

/-- Nothing goes wrong: every `seek` succeeds and the reads deliver the file from there on, in any pieces, with any number of interrupted calls. -/
def Faultless {Path : Type} (files : Path → Option MFile) (sys : Sys Path) : Prop :=
  ∀ i p off f, files p = some f → ∃ r, sys i p off = .reads r ∧ r.Delivers (f.content.drop off)

theorem readExactGo_ok (t : Tail) (es : List Ev) : ∀ (n : Nat) (acc got : List U8) (es' : List Ev), Reader.readExactGo t es n acc = (none, got, es') →
    got = acc ++ (evBytes es).take n ∧ n ≤ (evBytes es).length := by
  induction es with
  | nil =>
    intro n acc got es' h
    cases n with
    | zero => simp only [Reader.readExactGo, Prod.mk.injEq] at h; simp [← h.2.1]
    | succ n => cases t <;> simp [Reader.readExactGo] at h
  | cons e es ih =>
    intro n acc got es' h
    cases n with
    | zero =>
      rw [readExactGo_zero] at h
      simp only [Prod.mk.injEq] at h
      simp [← h.2.1]
    | succ n =>
      cases e with
      | err k =>
        unfold Reader.readExactGo at h
        split at h
        · obtain ⟨h1, h2⟩ := ih _ _ _ _ h
          exact ⟨by simpa [evBytes, Ev.bytes] using h1, by simpa [evBytes, Ev.bytes] using h2⟩
        · simp at h
      | data c =>
        unfold Reader.readExactGo at h
        have hb : evBytes (.data c :: es) = c ++ evBytes es := by simp [evBytes, Ev.bytes]
        rw [hb]
        split at h
        · simp at h
        · split at h
          · rename_i hle
            obtain ⟨h1, h2⟩ := ih _ _ _ _ h
            constructor
            · rw [h1, List.append_assoc, List.take_append, List.take_of_length_le (l := c) hle]
            · rw [List.length_append]; omega
          · rename_i hle
            simp only [Prod.mk.injEq, true_and] at h
            constructor
            · rw [← h.1, List.take_append_of_le_length (by omega)]
            · rw [List.length_append]; omega

theorem prefix_take {α : Type} {a b : List α} {n : Nat} (h : a <+: b) (hn : n ≤ a.length) : a.take n = b.take n := by
  obtain ⟨c, rfl⟩ := h
  rw [List.take_append_of_le_length hn]

section
variable {Path : Type} [DecidableEq Path]

omit [DecidableEq Path] in
theorem emit_mono (files : Path → Option MFile) (ps : List (Ptr Path)) : ∀ (out w : List (List U8)), Merger.emit files ps out = .ok w ∨ Merger.emit files ps out = .error w →
    out <+: w := by
  induction ps with
  | nil => intro out w h; rcases h with h | h <;> cases h; exact List.prefix_refl _
  | cons p ps ih =>
    intro out w h
    unfold Merger.emit at h
    cases hf : files p.path with
    | none => rw [hf] at h; rcases h with h | h <;> cases h
    | some f =>
      rw [hf] at h
      dsimp only at h
      split at h
      · rcases h with h | h <;> cases h; exact List.prefix_refl _
      · exact (List.prefix_append _ _).trans (ih _ _ h)

/-- A result that stopped early against one that did not. -/
def Stopped (s : List WEv) (res res0 : MResult) : Prop :=
  ∃ w w0, res = .error w ∧ (res0 = .ok w0 ∨ res0 = .error w0) ∧ w.flatten <+: w0.flatten ∧ (Healthy s → w <+: w0)

omit [DecidableEq Path] in
theorem emit_ends {files : Path → Option MFile} {ps : List (Ptr Path)} (h : ∀ q ∈ ps, files q.path ≠ none) (out : List (List U8)) :
    ∃ w0, (Merger.emit files ps out = .ok w0 ∨ Merger.emit files ps out = .error w0) ∧ out <+: w0 := by
  have h1 := emit_no_panic files ps h out
  have h2 := emit_mono files ps out
  generalize Merger.emit files ps out = r at *
  cases r with
  | panic => exact absurd rfl h1
  | ok w => exact ⟨w, .inl rfl, h2 w (.inl rfl)⟩
  | error w => exact ⟨w, .inr rfl, h2 w (.inr rfl)⟩

theorem prefix_flatten {α : Type} {a b : List (List α)} (h : a <+: b) : a.flatten <+: b.flatten := by
  obtain ⟨c, rfl⟩ := h
  rw [List.flatten_append]
  exact List.prefix_append _ _

omit [DecidableEq Path] in
theorem copies_emit {files : Path → Option MFile} {sys : Sys Path} (hh : Honest files sys) (ps : List (Ptr Path)) : ∀ (i : Nat) (s : List WEv) (out : List (List U8)),
    (∀ q ∈ ps, files q.path ≠ none) → copies sys i s ps out = Merger.emit files ps out ∨ Stopped s (copies sys i s ps out) (Merger.emit files ps out) := by
  induction ps with
  | nil => intro i s out _; exact .inl rfl
  | cons p ps ih =>
    intro i s out hp
    obtain ⟨w0, he, hw0⟩ := emit_ends hp out
    have stop : copies sys i s (p :: ps) out = .error out → Stopped s (copies sys i s (p :: ps) out) (Merger.emit files (p :: ps) out) := by
      intro e
      rw [e]
      exact ⟨out, w0, rfl, he, prefix_flatten hw0, fun _ => hw0⟩
    cases ha : sys i p.path p.offset with
    | noSeek => exact .inr (stop (by rw [copies, ha]))
    | reads r =>
      rcases hr : r.readExact p.size with ⟨k, buf, r'⟩
      cases k with
      | some k => exact .inr (stop (by rw [copies, ha]; dsimp only; rw [hr]))
      | none =>
        cases hf : files p.path with
        | none => exact absurd hf (hp p (by simp))
        | some f =>
          have hpre := hh _ _ _ _ _ ha hf
          have hgo : Reader.readExactGo r.tail r.script p.size [] = (none, buf, r'.script) := by
            unfold Reader.readExact at hr
            rcases hx : Reader.readExactGo r.tail r.script p.size [] with ⟨a, c, d⟩
            rw [hx] at hr
            simp only [Prod.mk.injEq] at hr
            obtain ⟨rfl, rfl, rfl⟩ := hr
            rfl
          obtain ⟨h1, h2⟩ := readExactGo_ok _ _ _ _ _ _ hgo
          rw [List.nil_append, prefix_take hpre h2] at h1
          have hlen : ¬ ((f.content.drop p.offset).take p.size).length < p.size := by
            have := hpre.length_le
            rw [List.length_take]; omega
          have he' : Merger.emit files (p :: ps) out = Merger.emit files ps (out ++ [buf]) := by
            rw [Merger.emit, hf]
            dsimp only
            rw [if_neg hlen, h1]
          have hc : copies sys i s (p :: ps) out = (match writeAll s buf with
              | (false, w, _) => .error (out ++ [w])
              | (true, w, s') => copies sys (i + 1) s' ps (out ++ [w])) := by
            rw [copies, ha]
            dsimp only
            rw [hr]
            rfl
          rw [hc, he']
          rcases hw : writeAll s buf with ⟨ok, w, s'⟩
          cases ok with
          | true =>
            obtain ⟨rfl, hs⟩ := writeAll_ok hw
            dsimp only
            rcases ih (i + 1) s' (out ++ [w]) (fun q hq => hp q (by simp [hq])) with e | ⟨x, y, e1, e2, e3, e4⟩
            · exact .inl e
            · exact .inr ⟨x, y, e1, e2, e3, fun hh => e4 (hh.suffix hs)⟩
          | false =>
            obtain ⟨hp1, hp2⟩ := writeAll_fail hw
            dsimp only
            obtain ⟨y, e, hy⟩ := emit_ends (files := files) (ps := ps) (fun q hq => hp q (by simp [hq])) (out ++ [buf])
            refine .inr ⟨_, y, rfl, e, ?_, fun hh => absurd hh hp2⟩
            refine List.IsPrefix.trans ?_ (prefix_flatten hy)
            rw [List.flatten_append, List.flatten_append]
            exact List.prefix_append_right_inj _ |>.2 (by simpa using hp1)

/-- C126: whatever the `seek`s, `read`s and `write`s of the copying loop do, the result is one of `merge` without such failures, or an error with the beginning of its output written: whole
groups, unless a `write` failed. -/
theorem C126_merge (b : Build) (τ : Epoch → Int) (m : Merger Path) (files : Path → Option MFile) (sys : Sys Path) (hh : Honest files sys) (s : List WEv) (res : MResult)
    (h : MergesS b τ m files sys s res) : ∃ res0, Merges b τ m files res0 ∧
      (res = res0 ∨ ∃ w w0, res = .error w ∧ (res0 = .ok w0 ∨ res0 = .error w0) ∧ w.flatten <+: w0.flatten ∧ (Healthy s → w <+: w0)) := by
  cases h with
  | openFails h1 h2 => exact ⟨_, .openFails h1 h2, .inl rfl⟩
  | panicked h1 h2 h3 => exact ⟨_, .panicked h1 h2 h3, .inl rfl⟩
  | @finished visit idx idx' h1 h2 h3 h4 =>
    have hp := index_paths h3 (by simp) idx rfl
    exact ⟨_, .finished h1 h2 h3 h4, copies_emit hh _ 0 s [] fun q hq => hp q (h4.mem_iff.1 (List.mem_mergeSort.1 hq))⟩

/-- C126: success means that the whole output was written. -/
theorem C126_success (b : Build) (τ : Epoch → Int) (m : Merger Path) (files : Path → Option MFile) (sys : Sys Path) (hh : Honest files sys) (s : List WEv) (out : List (List U8))
    (h : MergesS b τ m files sys s (.ok out)) : Merges b τ m files (.ok out) := by
  obtain ⟨res0, h0, rfl | ⟨w, w0, e, _⟩⟩ := C126_merge b τ m files sys hh s _ h
  · exact h0
  · cases e

omit [DecidableEq Path] in
theorem copies_sound {files : Path → Option MFile} {sys : Sys Path} (hh : Faultless files sys) (ps : List (Ptr Path)) : ∀ (i : Nat) (s : List WEv) (out : List (List U8)), Healthy s →
    (∀ q ∈ ps, files q.path ≠ none) → copies sys i s ps out = Merger.emit files ps out := by
  induction ps with
  | nil => intro i s out _ _; rfl
  | cons p ps ih =>
    intro i s out hs hp
    cases hf : files p.path with
    | none => exact absurd hf (hp p (by simp))
    | some f =>
      obtain ⟨r, ha, hd⟩ := hh i p.path p.offset f hf
      rw [copies, ha, Merger.emit, hf]
      dsimp only
      by_cases hlen : p.size ≤ (f.content.drop p.offset).length
      · obtain ⟨r', _, hr⟩ := readExact_enough hd hlen
        rw [hr, if_neg (by rw [List.length_take]; omega)]
        dsimp only
        rcases hw : writeAll s ((f.content.drop p.offset).take p.size) with ⟨ok, w, s'⟩
        cases ok with
        | true =>
          obtain ⟨rfl, hs'⟩ := writeAll_ok hw
          exact ih (i + 1) s' _ (hs.suffix hs') fun q hq => hp q (by simp [hq])
        | false => exact absurd hs (writeAll_fail hw).2
      · obtain ⟨r', _, hr⟩ := readExact_short hd (n := p.size) (by omega)
        rw [hr, if_pos (by rw [List.length_take]; omega)]

/-- C126: if nothing goes wrong the results are exactly those of `merge`. -/
theorem C126_sound (b : Build) (τ : Epoch → Int) (m : Merger Path) (files : Path → Option MFile) (sys : Sys Path) (hh : Faultless files sys) (s : List WEv) (hs : Healthy s)
    (res : MResult) : MergesS b τ m files sys s res ↔ Merges b τ m files res := by
  constructor
  · intro h
    cases h with
    | openFails h1 h2 => exact .openFails h1 h2
    | panicked h1 h2 h3 => exact .panicked h1 h2 h3
    | @finished visit idx idx' h1 h2 h3 h4 =>
      have hp := index_paths h3 (by simp) idx rfl
      rw [copies_sound hh _ 0 s [] hs fun q hq => hp q (h4.mem_iff.1 (List.mem_mergeSort.1 hq))]
      exact .finished h1 h2 h3 h4
  · intro h
    cases h with
    | openFails h1 h2 => exact .openFails h1 h2
    | panicked h1 h2 h3 => exact .panicked h1 h2 h3
    | @finished visit idx idx' h1 h2 h3 h4 =>
      have hp := index_paths h3 (by simp) idx rfl
      rw [← copies_sound hh _ 0 s [] hs fun q hq => hp q (h4.mem_iff.1 (List.mem_mergeSort.1 hq))]
      exact .finished h1 h2 h3 h4

/-- C126: if no input can be sought (pipes), `merge` writes nothing, and it succeeds only if there is nothing to write. -/
theorem C126_pipes (b : Build) (τ : Epoch → Int) (m : Merger Path) (files : Path → Option MFile) (sys : Sys Path) (hh : ∀ i p off, sys i p off = .noSeek) (s : List WEv)
    (res : MResult) (h : MergesS b τ m files sys s res) : (∀ w, res = .error w → w = []) ∧ (∀ w, res = .ok w → w = [] ∧ Merges b τ m files (.ok [])) := by
  cases h with
  | openFails h1 h2 => exact ⟨fun w e => (by cases e; rfl), fun w e => (by cases e)⟩
  | panicked h1 h2 h3 => exact ⟨fun w e => (by cases e), fun w e => (by cases e)⟩
  | @finished visit idx idx' h1 h2 h3 h4 =>
    have hm := Merges.finished (m := m) (τ := τ) h1 h2 h3 h4
    generalize idx'.mergeSort (Ptr.le τ) = ps at hm ⊢
    cases ps with
    | nil => exact ⟨fun w e => (by cases e), fun w e => (by cases e; exact ⟨rfl, hm⟩)⟩
    | cons p ps =>
      have : copies sys 0 s (p :: ps) [] = .error [] := by rw [copies, hh]
      rw [this]
      exact ⟨fun w e => (by cases e; rfl), fun w e => (by cases e)⟩

/-- C126, the command: other files are as after a run without failures; the result is that of such a run, or an error with the beginning of its output in the output file. -/
theorem C126_command (b : Build) (τ : Epoch → Int) (micros : Epoch → Nat) (sched : Path → List U8 → Reader) (sys : Sys Path) (a : Cmd.MergeArgs Path) (fs fs' : Cmd.FS Path)
    (hh : Honest ((fs.put a.output []).files sched) sys) (s : List WEv) (st : Cmd.Status) (h : Cmd.MergeRunS b τ micros sched sys a fs s st fs') :
    ∃ st0 fs0, Cmd.MergeRun b τ micros sched a fs st0 fs0 ∧ (∀ p, p ≠ a.output → fs' p = fs0 p) ∧
      ((st = st0 ∧ fs' = fs0) ∨ (st = .error ∧ ∃ c c0, fs' a.output = some c ∧ fs0 a.output = some c0 ∧ c <+: c0)) := by
  cases h with
  | exists_ h1 h2 => exact ⟨_, _, .exists_ h1 h2, fun _ _ => rfl, .inl ⟨rfl, rfl⟩⟩
  | badName h1 h2 => exact ⟨_, _, .badName h1 h2, fun _ _ => rfl, .inl ⟨rfl, rfl⟩⟩
  | createFails h1 h2 => exact ⟨_, _, .createFails h1 h2, fun _ _ => rfl, .inl ⟨rfl, rfl⟩⟩
  | noInputs h1 h2 h3 => exact ⟨_, _, .noInputs h1 h2 h3, fun _ _ => rfl, .inl ⟨rfl, rfl⟩⟩
  | @ran ord res h1 h2 h3 hm =>
    obtain ⟨res0, h0, rfl | ⟨w, w0, e, e0, hw, _⟩⟩ := C126_merge _ _ _ _ _ hh _ _ hm
    · exact ⟨_, _, .ran h1 h2 h3 h0, fun _ _ => rfl, .inl ⟨rfl, rfl⟩⟩
    · subst e
      refine ⟨_, _, .ran h1 h2 h3 h0, ?_, .inr ⟨rfl, w.flatten, w0.flatten, ?_, ?_, hw⟩⟩
      · intro p hp
        simp [Cmd.FS.put, hp]
      · simp [Cmd.FS.put, Cmd.mergeEnd]
      · rcases e0 with rfl | rfl <;> simp [Cmd.FS.put, Cmd.mergeEnd]

end

/-! ## Concrete cases: the two files of `MSEx`, three groups -/

namespace CopyEx
open MSEx

/-- Reads in pieces of a few bytes, one of them interrupted. -/
def pieces (l : List U8) : Reader := ⟨[.data (l.take 5), .err .interrupted, .data (l.drop 5)], .eof⟩

/-- File 1 can be read at first, and not any more when its group is copied. -/
def sys : Sys Nat := fun _ p off =>
  match files p with
  | some f => if p = 1 then .reads ⟨[.data ((f.content.drop off).take 3), .err (.other 5)], .fail 5⟩ else .reads (pieces (f.content.drop off))
  | none => .noSeek

theorem honest : Honest files sys := by
  intro i p off r f h hf
  unfold sys at h
  rw [hf] at h
  dsimp only at h
  split at h
  · cases h
    simp only [evBytes_cons, Ev.bytes, evBytes_nil, List.append_nil]
    exact List.take_prefix _ _
  · cases h
    simp only [pieces, evBytes_cons, Ev.bytes, evBytes_nil, List.append_nil, List.nil_append, List.take_append_drop]
    exact List.prefix_refl _

/-- The first group is written, the second cannot be read, and `merge` fails. -/
theorem stops (b : Build) : MergesS b MergeEx.tau merger files sys [] (.error [day 1#8 0#8]) := by
  have hi : Index b MergeEx.tau merger files [0, 1] [] (some [p1, p3, p2]) :=
    .step rfl (pointers_of groups0 (ps := [p1, p3]) (by cases b with | mk o => cases o <;> rfl)) (List.Perm.refl _) (List.Perm.refl _)
      (by
        rw [show Ptr.union MergeEx.tau [] [p1, p3] = [p1, p3] by rfl]
        exact .step rfl (pointers_of groups1 (ps := [p2]) (by cases b with | mk o => cases o <;> rfl)) (List.Perm.refl _) (List.Perm.refl _)
          (by rw [show Ptr.union MergeEx.tau [p1, p3] [p2] = [p1, p3, p2] by rfl]; exact .done))
  have := MergesS.finished (m := merger) (files := files) (sys := sys) (s := []) (by
      intro p hp
      simp [merger, Merger.withApids, Merger.new] at hp
      rcases hp with rfl | rfl <;> simp [files]) (List.Perm.refl _) hi
    (idx' := [p1, p2, p3]) ((List.Perm.swap _ _ _).cons _)
  rw [List.mergeSort_of_pairwise (by decide)] at this
  have e : copies sys 0 [] [p1, p2, p3] [] = .error [day 1#8 0#8] := by rfl
  rwa [e] at this

example (b : Build) := C126_merge b MergeEx.tau merger files sys honest [] _ (stops b)

/-- Without failures. -/
def good : Sys Nat := fun _ p off =>
  match files p with
  | some f => .reads ⟨if f.content.drop off = [] then [] else [.data (f.content.drop off)], .eof⟩
  | none => .noSeek

theorem faultless : Faultless files good := by
  intro i p off f hf
  refine ⟨_, by unfold good; rw [hf], ?_⟩
  refine ⟨?_, by dsimp only; split <;> simp_all [evBytes, Ev.bytes], rfl⟩
  intro e he
  dsimp only at he
  split at he
  · simp at he
  · rename_i hne
    simp only [List.mem_cons, List.not_mem_nil, or_false] at he
    exact .inl ⟨_, hne, he⟩

example (b : Build) : MergesS b MergeEx.tau merger files good [.accept 1, .err .interrupted] (.ok [day 1#8 0#8, day 2#8 2#8, day 3#8 4#8]) :=
  (C126_sound b MergeEx.tau merger files good faultless _ (by
    intro e he
    simp only [List.mem_cons, List.not_mem_nil, or_false] at he
    rcases he with rfl | rfl
    · exact .inl ⟨1, by decide, rfl⟩
    · exact .inr rfl) _).2 (mergesAll b)

/-- Two pipes: the groups are found, nothing is written. -/
example (b : Build) (res : MResult) (h : MergesS b MergeEx.tau merger files (fun _ _ _ => .noSeek) [] res) := C126_pipes b MergeEx.tau merger files _ (fun _ _ _ => rfl) [] res h

end CopyEx

end Ccsds
