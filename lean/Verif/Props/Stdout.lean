import Verif.Model.Stdout
import Verif.Props.Json
import Verif.Props.Diff
/-!
# C90: what the reporting commands say they printed, they printed
-/
namespace Ccsds
open Cmd Report
variable {Path : Type} [DecidableEq Path]

namespace Stdout

/-- All of `done` is on its way, and what is buffered is no complete line. -/
def Inv (s : Stdout) (done : List U8) : Prop := s.out ++ s.buf = done ∧ 10#8 ∉ s.buf

theorem raw_spec (s : Stdout) (bs : List U8) (hb : s.buf = []) :
    (s.raw bs).2.buf = [] ∧ ((s.raw bs).1 = true → (s.raw bs).2.out = s.out ++ bs) ∧ (s.raw bs).2.out <+: s.out ++ bs ∧ (s.raw bs).2.script <:+ s.script ∧
    (Healthy s.script → (s.raw bs).1 = true) := by
  obtain ⟨h1, h2, h3, h4⟩ := C77_write_all s.script bs
  refine ⟨hb, fun h => ?_, ?_, h3, h4⟩
  · show s.out ++ _ = _
    rw [h2.1 h]
  · exact (List.prefix_append_right_inj _).2 h1

theorem flush_spec (s : Stdout) :
    s.flushBuf.2.out ++ s.flushBuf.2.buf = s.out ++ s.buf ∧ (s.flushBuf.1 = true → s.flushBuf.2.buf = []) ∧ s.flushBuf.2.script <:+ s.script ∧
    (Healthy s.script → s.flushBuf.1 = true) ∧ s.flushBuf.2.buf <:+ s.buf := by
  obtain ⟨h1, h2, h3, h4⟩ := C77_write_all s.script s.buf
  obtain ⟨u, hu⟩ := h1
  have hd : s.buf.drop (writeAll s.script s.buf).2.1.length = u := by
    conv => lhs; arg 2; rw [← hu]
    exact List.drop_left
  refine ⟨?_, fun h => ?_, h3, h4, List.drop_suffix _ _⟩
  · show (s.out ++ _) ++ s.buf.drop _ = _
    rw [hd, List.append_assoc, hu]
  · show s.buf.drop _ = []
    rw [h2.1 h]
    exact List.drop_length

theorem bufWrite_spec (s : Stdout) (bs : List U8) :
    ((s.bufWrite bs).1 = true → (s.bufWrite bs).2.out ++ (s.bufWrite bs).2.buf = s.out ++ s.buf ++ bs ∧ (s.bufWrite bs).2.buf <:+ s.buf ++ bs) ∧
    (s.bufWrite bs).2.out ++ (s.bufWrite bs).2.buf <+: s.out ++ s.buf ++ bs ∧ (s.bufWrite bs).2.script <:+ s.script ∧ (Healthy s.script → (s.bufWrite bs).1 = true) := by
  unfold bufWrite
  split
  · refine ⟨fun _ => ⟨by simp, List.suffix_refl _⟩, by simp, List.suffix_refl _, fun _ => rfl⟩
  · rename_i h
    dsimp only
    by_cases hc : CAPACITY < s.buf.length + bs.length
    · rw [if_pos hc]
      obtain ⟨f1, f2, f3, f4, f5⟩ := flush_spec s
      cases hf : s.flushBuf.1 with
      | false =>
        simp only [Bool.not_false, if_true]
        refine ⟨by simp, ?_, f3, fun hh => ?_⟩
        · rw [f1]; exact List.prefix_append _ _
        · rw [f4 hh] at hf; cases hf
      | true =>
        have hb := f2 hf
        rw [hb, List.append_nil] at f1
        simp only [Bool.not_true, Bool.false_eq_true, if_false]
        split
        · obtain ⟨r1, r2, r3, r4, r5⟩ := raw_spec s.flushBuf.2 bs hb
          rw [f1] at r2 r3
          refine ⟨fun hk => ⟨by rw [r1, r2 hk, List.append_nil], by rw [r1]; exact List.nil_suffix⟩, by rw [r1, List.append_nil]; exact r3, r4.trans f3,
            fun hh => r5 (hh.suffix f3)⟩
        · refine ⟨fun _ => ⟨?_, ?_⟩, ?_, f3, fun _ => rfl⟩
          · show s.flushBuf.2.out ++ (s.flushBuf.2.buf ++ bs) = _
            rw [hb, f1, List.nil_append]
          · show s.flushBuf.2.buf ++ bs <:+ _
            rw [hb, List.nil_append]; exact List.suffix_append _ _
          · show s.flushBuf.2.out ++ (s.flushBuf.2.buf ++ bs) <+: _
            rw [hb, f1, List.nil_append]; exact List.prefix_refl _
    · rw [if_neg hc]
      simp only [Bool.not_true, Bool.false_eq_true, if_false]
      split
      · rename_i hcap
        have hb : s.buf = [] := List.length_eq_zero_iff.1 (by omega)
        obtain ⟨r1, r2, r3, r4, r5⟩ := raw_spec s bs hb
        refine ⟨fun hk => ⟨by rw [r1, r2 hk, hb]; simp, by rw [r1]; exact List.nil_suffix⟩, by rw [r1, hb]; simpa using r3, r4, r5⟩
      · refine ⟨fun _ => ⟨by simp, List.suffix_refl _⟩, by simp, List.suffix_refl _, fun _ => rfl⟩

theorem lines_tail (bs : List U8) : lines bs ++ tail bs = bs ∧ 10#8 ∉ tail bs := by
  have hs : tail bs <:+ bs := by
    unfold tail
    rw [← List.reverse_prefix, List.reverse_reverse]
    exact List.takeWhile_prefix _
  constructor
  · unfold lines
    obtain ⟨u, hu⟩ := hs
    have : bs.length - (tail bs).length = u.length := by
      have := congrArg List.length hu
      rw [List.length_append] at this
      omega
    rw [this]
    conv => lhs; arg 1; rw [← hu]
    rw [List.take_left, hu]
  · unfold tail
    intro hm
    rw [List.mem_reverse] at hm
    have key : ∀ l : List U8, ∀ x ∈ l.takeWhile (· ≠ 10#8), x ≠ 10#8 := by
      intro l
      induction l with
      | nil => simp
      | cons y l ih =>
        intro x hx
        by_cases hy : y = 10#8
        · simp [hy] at hx
        · rw [List.takeWhile_cons_of_pos (by simpa using hy)] at hx
          rcases List.mem_cons.1 hx with rfl | hx
          · exact hy
          · exact ih x hx
    exact key _ _ hm rfl

theorem write_spec (s : Stdout) (bs done : List U8) (h : s.Inv done) :
    ((s.write bs).1 = true → (s.write bs).2.Inv (done ++ bs)) ∧ (s.write bs).2.out ++ (s.write bs).2.buf <+: done ++ bs ∧ (s.write bs).2.script <:+ s.script ∧
    (Healthy s.script → (s.write bs).1 = true) := by
  obtain ⟨hd, hn⟩ := h
  unfold write
  split
  · rename_i hbs
    have hl : s.buf.getLast? ≠ some 10#8 := fun e => hn (List.mem_of_getLast? e)
    rw [if_neg hl]
    simp only [Bool.not_true, Bool.false_eq_true, if_false]
    obtain ⟨w1, w2, w3, w4⟩ := bufWrite_spec s bs
    rw [hd] at w1 w2
    refine ⟨fun hk => ⟨(w1 hk).1, fun hm => ?_⟩, w2, w3, w4⟩
    rcases List.mem_append.1 ((w1 hk).2.subset hm) with h | h
    · exact hn h
    · exact hbs h
  · obtain ⟨ht, htn⟩ := lines_tail bs
    -- the lines have been written, and nothing is buffered
    have key : ∀ r : Bool × Stdout, (r.1 = true → r.2.out = done ++ lines bs ∧ r.2.buf = []) → r.2.out ++ r.2.buf <+: done ++ lines bs → r.2.script <:+ s.script →
        (Healthy s.script → r.1 = true) →
        ((if !r.1 then (false, r.2) else r.2.bufWrite (tail bs)).1 = true → (if !r.1 then (false, r.2) else r.2.bufWrite (tail bs)).2.Inv (done ++ bs)) ∧
        (if !r.1 then (false, r.2) else r.2.bufWrite (tail bs)).2.out ++ (if !r.1 then (false, r.2) else r.2.bufWrite (tail bs)).2.buf <+: done ++ bs ∧
        (if !r.1 then (false, r.2) else r.2.bufWrite (tail bs)).2.script <:+ s.script ∧
        (Healthy s.script → (if !r.1 then (false, r.2) else r.2.bufWrite (tail bs)).1 = true) := by
      intro r r1 r2 r3 r4
      cases hr : r.1 with
      | false =>
        simp only [Bool.not_false, if_true]
        refine ⟨by simp, r2.trans ?_, r3, fun hh => by rw [r4 hh] at hr; cases hr⟩
        conv => rhs; rw [← ht]
        rw [← List.append_assoc]; exact List.prefix_append _ _
      | true =>
        obtain ⟨e1, e2⟩ := r1 hr
        simp only [Bool.not_true, Bool.false_eq_true, if_false]
        obtain ⟨w1, w2, w3, w4⟩ := bufWrite_spec r.2 (tail bs)
        rw [e1, e2, List.append_nil, List.append_assoc, ht] at w1 w2
        refine ⟨fun hk => ⟨(w1 hk).1, fun hm => ?_⟩, w2, w3.trans r3, fun hh => w4 (hh.suffix r3)⟩
        exact htn ((w1 hk).2.subset hm)
    apply key
    · split
      · rename_i hb
        obtain ⟨r1, r2, _, _, _⟩ := raw_spec s (lines bs) hb
        rw [hb, List.append_nil] at hd
        rw [hd] at r2
        exact fun hk => ⟨r2 hk, r1⟩
      · obtain ⟨w1, _, _, _⟩ := bufWrite_spec s (lines bs)
        dsimp only
        cases hw : (s.bufWrite (lines bs)).1 with
        | false => intro hk; rw [if_pos (by rfl)] at hk; cases hk
        | true =>
          rw [if_neg (by decide)]
          intro hk
          obtain ⟨f1, f2, _, _, _⟩ := flush_spec (s.bufWrite (lines bs)).2
          rw [f2 hk, List.append_nil, (w1 hw).1, hd] at f1
          exact ⟨f1, f2 hk⟩
    · split
      · rename_i hb
        obtain ⟨r1, _, r3, _, _⟩ := raw_spec s (lines bs) hb
        rw [hb, List.append_nil] at hd
        rw [r1, List.append_nil, ← hd]
        exact r3
      · obtain ⟨_, w2, _, _⟩ := bufWrite_spec s (lines bs)
        rw [hd] at w2
        dsimp only
        split
        · exact w2
        · rw [(flush_spec _).1]; exact w2
    · split
      · rename_i hb
        exact (raw_spec s (lines bs) hb).2.2.2.1
      · obtain ⟨_, _, w3, _⟩ := bufWrite_spec s (lines bs)
        dsimp only
        split
        · exact w3
        · exact (flush_spec _).2.2.1.trans w3
    · intro hh
      split
      · rename_i hb
        exact (raw_spec s (lines bs) hb).2.2.2.2 hh
      · obtain ⟨_, _, w3, w4⟩ := bufWrite_spec s (lines bs)
        dsimp only
        rw [w4 hh, if_neg (by decide)]
        exact (flush_spec _).2.2.2.1 (hh.suffix w3)

theorem writes_spec (ps : List (List U8)) : ∀ (s : Stdout) (done : List U8), s.Inv done →
    ((s.writes ps).1 = true → (s.writes ps).2.Inv (done ++ ps.flatten)) ∧ (s.writes ps).2.out ++ (s.writes ps).2.buf <+: done ++ ps.flatten ∧
    (s.writes ps).2.script <:+ s.script ∧ (Healthy s.script → (s.writes ps).1 = true) := by
  induction ps with
  | nil => intro s done h; simp only [writes, List.flatten_nil, List.append_nil]; exact ⟨fun _ => h, by rw [h.1]; exact List.prefix_refl _, List.suffix_refl _, fun _ => trivial⟩
  | cons p ps ih =>
    intro s done h
    obtain ⟨w1, w2, w3, w4⟩ := write_spec s p done h
    simp only [writes, List.flatten_cons]
    cases hw : (s.write p).1 with
    | false =>
      simp only [Bool.not_false, if_true]
      refine ⟨by simp, w2.trans ?_, w3, fun hh => by rw [w4 hh] at hw; cases hw⟩
      rw [← List.append_assoc]; exact List.prefix_append _ _
    | true =>
      simp only [Bool.not_true, Bool.false_eq_true, if_false]
      obtain ⟨i1, i2, i3, i4⟩ := ih _ _ (w1 hw)
      rw [List.append_assoc] at i1 i2
      exact ⟨i1, i2, i3.trans w3, fun hh => i4 (hh.suffix w3)⟩

theorem new_inv (script : List WEv) : (new script).Inv [] := ⟨rfl, by simp [new]⟩

theorem exit_spec (s : Stdout) : s.exit <+: s.out ++ s.buf ∧ s.out <+: s.exit ∧ (Healthy s.script → s.exit = s.out ++ s.buf) := by
  obtain ⟨f1, f2, _, f4, _⟩ := flush_spec s
  refine ⟨?_, List.prefix_append _ _, fun hh => ?_⟩
  · rw [← f1]; exact List.prefix_append _ _
  · rw [f2 (f4 hh), List.append_nil] at f1; exact f1

end Stdout

open Stdout

/-- C90: whatever happens on standard output, what has come out when the program ends is a beginning of what was to be printed. -/
theorem C90_prefix (script : List WEv) (pieces : List (List U8)) : ((Stdout.new script).writes pieces).2.exit <+: pieces.flatten := by
  obtain ⟨_, h2, _, _⟩ := writes_spec pieces _ _ (new_inv script)
  exact (exit_spec _).1.trans (by simpa using h2)

/-- C90: if printing succeeded, only what follows the last line end can be missing. -/
theorem C90_lines (script : List WEv) (pieces : List (List U8)) (h : ((Stdout.new script).writes pieces).1 = true) :
    ∃ rest, pieces.flatten = ((Stdout.new script).writes pieces).2.exit ++ rest ∧ 10#8 ∉ rest := by
  obtain ⟨h1, _, _, _⟩ := writes_spec pieces _ _ (new_inv script)
  obtain ⟨e1, e2⟩ := h1 h
  rw [List.nil_append] at e1
  obtain ⟨f1, _, _, _, f5⟩ := flush_spec ((Stdout.new script).writes pieces).2
  exact ⟨_, (e1.symm.trans f1.symm), fun hm => e2 (f5.subset hm)⟩

/-- C90: so if it ends with a line end, nothing is missing. -/
theorem C90_complete (script : List WEv) (pieces : List (List U8)) (h : ((Stdout.new script).writes pieces).1 = true) (hl : pieces.flatten.getLast? = some 10#8) :
    ((Stdout.new script).writes pieces).2.exit = pieces.flatten := by
  obtain ⟨rest, h1, h2⟩ := C90_lines script pieces h
  have : rest = [] := by
    cases hr : rest.getLast? with
    | none => exact List.getLast?_eq_none_iff.1 hr
    | some x =>
      rw [h1, List.getLast?_append, hr] at hl
      simp at hl
      rw [hl] at hr
      exact absurd (List.mem_of_getLast? hr) h2
  rw [h1, this, List.append_nil]

/-- C90: on a healthy output everything is printed. -/
theorem C90_healthy (script : List WEv) (pieces : List (List U8)) (h : Healthy script) :
    ((Stdout.new script).writes pieces).1 = true ∧ ((Stdout.new script).writes pieces).2.exit = pieces.flatten := by
  obtain ⟨h1, _, h3, h4⟩ := writes_spec pieces _ _ (new_inv script)
  have hk := h4 h
  refine ⟨hk, ?_⟩
  rw [(exit_spec _).2.2 (h.suffix h3), (h1 hk).1, List.nil_append]

/-! ## Texts -/

theorem utf8_append (a b : Text) : utf8 (a ++ b) = utf8 a ++ utf8 b := by simp [utf8]

/-- The text ends with a line end. -/
def EndsLine (t : Text) : Prop := ∃ u, t = u ++ ['\n']

theorem EndsLine.append {t : Text} (a : Text) (h : EndsLine t) : EndsLine (a ++ t) := by
  obtain ⟨u, rfl⟩ := h
  exact ⟨a ++ u, by simp⟩
theorem EndsLine.cons {t : Text} (c : Char) (h : EndsLine t) : EndsLine (c :: t) := h.append [c]
theorem endsLine_flatMap {α : Type} (f : α → Text) (l : List α) (h : ∀ a, EndsLine (f a)) : EndsLine ('\n' :: l.flatMap f) := by
  induction l with
  | nil => exact ⟨[], rfl⟩
  | cons a l ih =>
    obtain ⟨u, hu⟩ := h a
    rw [List.flatMap_cons, hu, List.append_assoc]
    exact (EndsLine.append u ih).cons _

theorem utf8_endsLine {t : Text} (h : EndsLine t) : (utf8 t).getLast? = some 10#8 := by
  obtain ⟨u, rfl⟩ := h
  rw [utf8_append, List.getLast?_append]
  have : utf8 ['\n'] = [10#8] := by decide
  rw [this]
  rfl

theorem infoText_ends (showE : Epoch → Text) (showD : Int → Text) (name : Text) (i : Info.Info) : EndsLine (infoText showE showD name i) := by
  have h := endsLine_flatMap (infoRow showE) i.apids (fun a => ⟨_, rfl⟩)
  unfold infoText
  refine .append _ (.cons _ (.append _ (.cons _ (.append _ (.cons _ (.append _ (.cons _ (.append _ (.cons _ (.append _ (.cons _ (.append _ (.cons _ (.append _ (.cons _ (.append _
    (.cons _ (.append _ (.cons _ (.append _ ?_))))))))))))))))))))
  exact h

theorem framingText_ends (s : Framing.Summary) : EndsLine (framingText s) := by
  have h := endsLine_flatMap framingRow s.vcids (fun a => ⟨_, rfl⟩)
  unfold framingText
  refine .append _ (.cons _ (.append _ (.cons _ (.append _ (.cons _ (.append _ (.cons _ (.append _ (.cons _ (.append _ (.cons _ (.append _ (.cons _ (.append _ (.cons _ (.append _
    (.cons _ (.append _ (.cons _ (.append _ (.cons _ (.append _ ?_))))))))))))))))))))))
  exact h

theorem diffRows_ends (b : Build) (rows : List (U16 × Nat × Nat)) : EndsLine ('\n' :: (diffRows b rows).1) := by
  induction rows with
  | nil => exact ⟨[], rfl⟩
  | cons x rows ih =>
    obtain ⟨a, l, r⟩ := x
    rw [diffRows]
    cases difference b l r with
    | panic => exact ⟨[], rfl⟩
    | ret d => exact .cons _ (.append _ ih)

theorem diffTable_ends (b : Build) (rows : List (U16 × Nat × Nat)) (h : (diffRows b rows).2 = false) : EndsLine (diffTable b (some rows)).1 := by
  unfold diffTable
  dsimp only
  rw [h, if_neg (by decide), List.append_nil]
  have hs : "====  ========  ========  ========\n".toList = "====  ========  ========  ========".toList ++ ['\n'] := by decide +kernel
  rw [hs]
  generalize "Apid counts:\n".toList = x
  generalize "APID  Left      Right     Diff\n".toList = y
  generalize "====  ========  ========  ========".toList = z
  rw [List.append_assoc]
  exact .append _ (.append _ (.append _ (diffRows_ends b rows)))

theorem diffText_ends (b : Build) (left right : Text) (t : Option (List (U16 × Nat × Nat))) (ls : List Diff.Line) : EndsLine (diffText b left right t ls).1 := by
  unfold diffText
  dsimp only
  split
  · refine .append _ ?_
    have h := endsLine_flatMap diffLine ls (fun a => by cases a <;> exact ⟨_, rfl⟩)
    have e : ∃ u, diffHead left right ++ ls.flatMap diffLine = u ++ '\n' :: ls.flatMap diffLine := by
      unfold diffHead
      generalize diffRule = rule
      generalize "Present in left, but not right         Present in right, but not left\n".toList = p
      generalize "left:  ".toList = q
      generalize "right: ".toList = r
      exact ⟨'\n' :: (q ++ left ++ '\n' :: (r ++ right ++ '\n' :: '\n' :: (p ++ rule))), by simp⟩
    obtain ⟨u, hu⟩ := e
    rw [hu]
    exact .append _ h
  · rename_i h
    cases t with
    | none => exact absurd rfl h
    | some rows => exact diffTable_ends b rows (Bool.eq_false_iff.2 h)

theorem infoJson_ends (showE : Epoch → Text) (showD : Int → Text) (name : Text) (i : Info.Info) :
    ∃ u, infoJson showE showD name i = u ++ ['\n', '}'] := by
  unfold infoJson infoJsonValue
  simp only [Fields.of]
  rw [pretty]
  exact ⟨_, by rw [show newline 0 = ['\n'] from rfl, List.append_assoc]; rfl⟩

/-! ## The commands -/

section
variable {b : Build} {τ : Epoch → Int} {showE : Epoch → Text} {showD : Int → Text} {sched : Path → List U8 → Reader} {name : Path → Text} {cds : Bool} {p : Path} {fs : FS Path}
  {script : List WEv} {st : Status} {out : List U8}

theorem write_one (s : Stdout) (bs : List U8) : s.writes [bs] = s.write bs := by
  simp only [writes]
  cases h : (s.write bs).1 with
  | false => simp only [Bool.not_false, if_true]; rw [← h]
  | true => simp only [Bool.not_true, Bool.false_eq_true, if_false]; rw [← h]

omit [DecidableEq Path] in
/-- **C90.** If `ccsds info` (as text) succeeds, its whole report has come out, whatever standard output did on the way. -/
theorem C90_info_text (h : InfoCmd b τ showE showD sched name cds .text p fs script .ok out) :
    ∃ content i, fs p = some content ∧ Info.Runs b τ cds (sched p content) (some i) ∧ out = utf8 (infoText showE showD (name p) i) := by
  generalize hst : Status.ok = st at h
  cases h with
  | cannotOpen => cases hst
  | panicked => cases hst
  | json _ _ hf => cases hf
  | @text content i h1 h2 h3 =>
    refine ⟨content, i, h1, h2, ?_⟩
    have hok : ((Stdout.new script).writes [utf8 (infoText showE showD (name p) i)]).1 = true := by
      rw [write_one]
      cases hw : ((Stdout.new script).write (utf8 (infoText showE showD (name p) i))).1 with
      | true => rfl
      | false => rw [hw] at hst; cases hst
    have := C90_complete script _ hok (by simpa using utf8_endsLine (infoText_ends showE showD (name p) i))
    rw [write_one] at this
    simpa using this

omit [DecidableEq Path] in
/-- C90: as JSON, everything has come out, or all but the final brace; then what has come out is no JSON text. -/
theorem C90_info_json (h : InfoCmd b τ showE showD sched name cds .json p fs script .ok out) :
    ∃ content i t, fs p = some content ∧ Info.Runs b τ cds (sched p content) (some i) ∧ out = utf8 t ∧
      (t = infoJson showE showD (name p) i ∨ (t ++ ['}'] = infoJson showE showD (name p) i ∧ Spec.Json.parse t = none)) := by
  generalize hst : Status.ok = st at h
  cases h with
  | cannotOpen => cases hst
  | panicked => cases hst
  | text _ _ hf => cases hf
  | @json content i pieces h1 h2 h3 hp =>
    have hok : ((Stdout.new script).writes pieces).1 = true := by
      cases hw : ((Stdout.new script).writes pieces).1 with
      | true => rfl
      | false => rw [hw] at hst; cases hst
    obtain ⟨rest, hr, hn⟩ := C90_lines script pieces hok
    obtain ⟨u, hu⟩ := infoJson_ends showE showD (name p) i
    rw [hp, hu, show (['\n', '}'] : Text) = ['\n'] ++ ['}'] from rfl, ← List.append_assoc, utf8_append, show utf8 ['}'] = [125#8] from by decide] at hr
    -- `rest` is empty or the brace
    rcases List.append_eq_append_iff.1 hr with ⟨w, hw1, hw2⟩ | ⟨w, hw1, hw2⟩
    · -- out = utf8 (u ++ "\n") ++ w
      cases w with
      | nil =>
        rw [List.append_nil] at hw1
        refine ⟨content, i, u ++ ['\n'], h1, h2, hw1, .inr ⟨by rw [hu]; simp, ?_⟩⟩
        refine C89_info_incomplete showE showD (name p) i _ ⟨['}'], by rw [hu]; simp⟩ ?_
        rw [hu]; intro e
        have := congrArg List.length e
        simp at this
      | cons x w =>
        obtain ⟨hx, hw3⟩ := List.cons.inj hw2
        obtain ⟨rfl, _⟩ := List.append_eq_nil_iff.1 hw3.symm
        refine ⟨content, i, infoJson showE showD (name p) i, h1, h2, ?_, .inl rfl⟩
        rw [hu, show (['\n', '}'] : Text) = ['\n'] ++ ['}'] from rfl, ← List.append_assoc, utf8_append, show utf8 ['}'] = [125#8] from by decide, hw1, ← hx]
    · cases w with
      | nil =>
        rw [List.append_nil] at hw1
        refine ⟨content, i, u ++ ['\n'], h1, h2, hw1.symm, .inr ⟨by rw [hu]; simp, ?_⟩⟩
        refine C89_info_incomplete showE showD (name p) i _ ⟨['}'], by rw [hu]; simp⟩ ?_
        rw [hu]; intro e
        have := congrArg List.length e
        simp at this
      | cons x w =>
        exfalso
        have hl : (x :: w).getLast? = some 10#8 := by
          have := utf8_endsLine (t := u ++ ['\n']) ⟨u, rfl⟩
          rw [hw1, List.getLast?_append] at this
          cases hg : (x :: w).getLast? with
          | none => rw [List.getLast?_eq_none_iff] at hg; cases hg
          | some y => rw [hg] at this; simpa using this
        refine hn ?_
        rw [hw2]
        exact List.mem_append_left _ (List.mem_of_getLast? hl)

omit [DecidableEq Path] in
/-- C90: in every case what has come out is a beginning of the report (nothing, if there is none). -/
theorem C90_info_prefix {format : InfoFormat} (h : InfoCmd b τ showE showD sched name cds format p fs script st out) :
    out = [] ∨ ∃ content i, fs p = some content ∧ Info.Runs b τ cds (sched p content) (some i) ∧
      out <+: utf8 (if format = .text then infoText showE showD (name p) i else infoJson showE showD (name p) i) := by
  cases h with
  | cannotOpen => exact .inl rfl
  | panicked => exact .inl rfl
  | @text content i h1 h2 h3 =>
    refine .inr ⟨content, i, h1, h2, ?_⟩
    rw [if_pos h3]
    have := C90_prefix script [utf8 (infoText showE showD (name p) i)]
    rw [write_one] at this
    simpa using this
  | @json content i pieces h1 h2 h3 hp =>
    refine .inr ⟨content, i, h1, h2, ?_⟩
    rw [if_neg (by rw [h3]; decide), ← hp]
    exact C90_prefix script pieces

/-- C90: the text that `ccsds framing` prints at its end has come out completely if printing it succeeded (main.rs:482, frame.rs:209). -/
theorem C90_framing (script : List WEv) (s : Framing.Summary) (h : ((Stdout.new script).write (utf8 (framingText s))).1 = true) :
    ((Stdout.new script).write (utf8 (framingText s))).2.exit = utf8 (framingText s) := by
  have := C90_complete script [utf8 (framingText s)] (by rw [write_one]; exact h) (by simpa using utf8_endsLine (framingText_ends s))
  rw [write_one] at this
  simpa using this

/-- Full statement: if `ccsds info` succeeds, its whole report has come out. -/
def C90_full : Prop :=
  ∀ (b : Build) (τ : Epoch → Int) (showE : Epoch → Text) (showD : Int → Text) (sched : Nat → List U8 → Reader) (name : Nat → Text) (cds : Bool) (format : InfoFormat) (p : Nat)
    (fs : FS Nat) (script : List WEv) (out : List U8), InfoCmd b τ showE showD sched name cds format p fs script .ok out →
    ∃ content i, fs p = some content ∧ Info.Runs b τ cds (sched p content) (some i) ∧
      out = utf8 (if format = .text then infoText showE showD (name p) i else infoJson showE showD (name p) i)

/-- A disk that takes the first `n` bytes and is then full. -/
def fullAfter (n : Nat) : List WEv := [.accept n, .err (.other 28)]

theorem write_loses (u rest : List U8) (hn : 10#8 ∉ rest) (hne : rest ≠ []) (hl : rest.length < CAPACITY) (n : Nat) (h : u.length < n) :
    ((Stdout.new (fullAfter n)).write (u ++ 10#8 :: rest)).1 = true ∧ ((Stdout.new (fullAfter n)).write (u ++ 10#8 :: rest)).2.exit = u ++ [10#8] := by
  have ht : tail (u ++ 10#8 :: rest) = rest := by
    unfold tail
    rw [List.reverse_append, List.reverse_cons, List.append_assoc, List.takeWhile_append_of_pos]
    · simp
    · intro x hx
      simp only [decide_eq_true_eq]
      rintro rfl
      exact hn (List.mem_reverse.1 hx)
  have hli : lines (u ++ 10#8 :: rest) = u ++ [10#8] := by
    have := (lines_tail (u ++ 10#8 :: rest)).1
    rw [ht] at this
    exact List.append_cancel_right (this.trans (by simp))
  have hraw : (Stdout.new (fullAfter n)).raw (u ++ [10#8]) = (true, ⟨[], u ++ [10#8], [.err (.other 28)]⟩) := by
    unfold raw new fullAfter
    have hle : (u ++ [10#8]).length ≤ n := by rw [List.length_append]; exact h
    have : writeAll [.accept n, .err (.other 28)] (u ++ [10#8]) = (true, u ++ [10#8], [.err (.other 28)]) := by
      cases u with
      | nil => rw [List.nil_append, writeAll, if_neg (by omega), if_pos (by simpa using hle)]; simp
      | cons x u => rw [List.cons_append, writeAll, if_neg (by omega), if_pos (by simpa using hle)]; simp
    dsimp only
    rw [this]
    rfl
  have hw : (Stdout.new (fullAfter n)).write (u ++ 10#8 :: rest) = (true, ⟨rest, u ++ [10#8], [.err (.other 28)]⟩) := by
    unfold write
    rw [if_neg (by simp), hli, ht, hraw]
    have hb : (Stdout.new (fullAfter n)).buf = [] := rfl
    simp only [hb, if_true, Bool.not_true, Bool.false_eq_true, if_false]
    unfold bufWrite
    rw [if_pos (by simpa using hl)]
    rfl
  rw [hw]
  refine ⟨rfl, ?_⟩
  unfold exit flushBuf
  dsimp only
  cases rest with
  | nil => exact absurd rfl hne
  | cons x rest =>
    rw [writeAll, if_neg (by decide)]
    · simp
    · simp

omit [DecidableEq Path] in
/-- C90: **how JSON is lost.** Whatever the report, if the disk is full just before its last character, `ccsds info --format json` succeeds, and the report that has come out
lacks its final brace. -/
theorem C90_json_loses {content : List U8} {i : Info.Info} (h1 : fs p = some content) (h2 : Info.Runs b τ cds (sched p content) (some i)) :
    ∃ t n, t ++ ['}'] = infoJson showE showD (name p) i ∧ InfoCmd b τ showE showD sched name cds .json p fs (fullAfter n) .ok (utf8 t) ∧ (utf8 t).getLast? = some 10#8 := by
  obtain ⟨u, hu⟩ := infoJson_ends showE showD (name p) i
  have hb : utf8 (infoJson showE showD (name p) i) = utf8 u ++ 10#8 :: [125#8] := by
    rw [hu, utf8_append, show utf8 ['\n', '}'] = [10#8, 125#8] from by decide]
  obtain ⟨w1, w2⟩ := write_loses (utf8 u) [125#8] (by decide) (by decide) (by decide) ((utf8 u).length + 1) (Nat.lt_succ_self _)
  rw [← hb] at w1 w2
  refine ⟨u ++ ['\n'], (utf8 u).length + 1, by rw [hu]; simp, ?_, utf8_endsLine ⟨u, rfl⟩⟩
  have := InfoCmd.json (b := b) (τ := τ) (showE := showE) (showD := showD) (sched := sched) (name := name) (cds := cds) (p := p) (fs := fs)
    (script := fullAfter ((utf8 u).length + 1)) (pieces := [utf8 (infoJson showE showD (name p) i)]) h1 h2 rfl (by simp)
  rw [write_one, w1, w2, if_pos rfl] at this
  rw [utf8_append]
  exact this

/-- **C90 is violated** by `ccsds info --format json`. -/
theorem C90_violated : ¬ C90_full := by
  intro h
  let fs : FS Nat := fun _ => some FilterEx.stream
  obtain ⟨i, _, hi⟩ := C56_info ⟨true⟩ FilterEx.tau true _ _ _ FilterEx.delivers FilterEx.decodes
  obtain ⟨t, n, _, hc, hl⟩ := C90_json_loses (showE := fun _ => []) (showD := fun _ => []) (sched := fun _ => Reader.ofBytes) (name := fun _ => []) (p := 0) (fs := fs)
    (content := FilterEx.stream) rfl ((hi (some i)).2 rfl)
  obtain ⟨_, j, _, _, ho⟩ := h _ _ _ _ _ _ _ _ _ _ _ _ hc
  rw [if_neg (by decide)] at ho
  obtain ⟨u, hu⟩ := infoJson_ends (fun _ => []) (fun _ => []) [] j
  rw [ho, hu, utf8_append, show utf8 ['\n', '}'] = [10#8, 125#8] from by decide, List.getLast?_append] at hl
  simp at hl

omit [DecidableEq Path] in
/-- **C90 as far as it holds**: if `ccsds info` succeeds, its whole report has come out, if it is text, or if standard output takes everything it is given. -/
theorem C90_partial {format : InfoFormat} (hf : format = .text ∨ Healthy script) (h : InfoCmd b τ showE showD sched name cds format p fs script .ok out) :
    ∃ content i, fs p = some content ∧ Info.Runs b τ cds (sched p content) (some i) ∧
      out = utf8 (if format = .text then infoText showE showD (name p) i else infoJson showE showD (name p) i) := by
  cases format with
  | text => exact C90_info_text h
  | json =>
    replace hf := hf.resolve_left (by decide)
    generalize hst : Status.ok = st at h
    cases h with
    | cannotOpen => cases hst
    | panicked => cases hst
    | text _ _ hf => cases hf
    | @json content i pieces h1 h2 h3 hp =>
      refine ⟨content, i, h1, h2, ?_⟩
      rw [(C90_healthy script pieces hf).2, hp, if_neg (by decide)]

omit [DecidableEq Path] in
/-- C90: on such an output the command has a result for every file it can read, and succeeds. -/
theorem C90_info_total {format : InfoFormat} (hf : Healthy script) {content : List U8} {i : Info.Info} (h1 : fs p = some content)
    (h2 : Info.Runs b τ cds (sched p content) (some i)) :
    InfoCmd b τ showE showD sched name cds format p fs script .ok (utf8 (if format = .text then infoText showE showD (name p) i else infoJson showE showD (name p) i)) := by
  cases format with
  | text =>
    have := InfoCmd.text (showE := showE) (showD := showD) (name := name) (script := script) h1 h2 rfl
    obtain ⟨w1, w2⟩ := C90_healthy script [utf8 (infoText showE showD (name p) i)] hf
    rw [write_one] at w1 w2
    rw [w1, w2, if_pos rfl] at this
    simpa using this
  | json =>
    have := InfoCmd.json (showE := showE) (showD := showD) (name := name) (script := script) (pieces := [utf8 (infoJson showE showD (name p) i)]) h1 h2 rfl (by simp)
    obtain ⟨w1, w2⟩ := C90_healthy script [utf8 (infoJson showE showD (name p) i)] hf
    rw [w1, w2, if_pos rfl] at this
    simpa using this

/-- Concrete: the two packets of `FilterEx`, on a standard output that takes seven bytes, is interrupted, and then takes everything. -/
example (b : Build) (showE : Epoch → Text) (showD : Int → Text) : ∃ out, InfoCmd b FilterEx.tau showE showD (fun _ : Nat => Reader.ofBytes) (fun _ => ['x']) true .text 0
    (fun _ => some FilterEx.stream) [.accept 7, .err .interrupted] .ok out := by
  obtain ⟨i, _, hi⟩ := C56_info b FilterEx.tau true _ _ _ FilterEx.delivers FilterEx.decodes
  exact ⟨_, C90_info_total (script := [.accept 7, .err .interrupted]) (by unfold Healthy; simp) rfl ((hi (some i)).2 rfl)⟩
end

section
variable {b : Build} {crc : List U8 → U32} {sched : Path → List U8 → Reader} {name : Path → Text} {verbose : Bool} {left right : Path} {fs : FS Path} {script : List WEv} {st : Status}
  {out : List U8}

omit [DecidableEq Path] in
theorem differ_ne_nil {l r : Option MFile} {sc : Bool} {t : Option (List (U16 × Nat × Nat))} {ls : List Diff.Line} (h : Diff.Runs crc l r sc (.differ t ls)) : ls ≠ [] := by
  generalize hres : Diff.DResult.differ t ls = res at h
  cases h with
  | noLeft => cases hres
  | leftPanics => cases hres
  | noRight => cases hres
  | rightPanics => cases hres
  | compared =>
    unfold Diff.compare at hres
    split at hres
    · dsimp only at hres
      split at hres
      · cases hres
      · split at hres
        · rename_i hl
          injection hres with _ h2
          subst h2
          intro e
          rw [e] at hl
          exact hl rfl
        · cases hres
    · cases hres

omit [DecidableEq Path] in
/-- **C90.** If `ccsds diff` does not panic and could compare the files, everything it has to say has come out: the headings, the table, and all lines; and it fails exactly if
there is a line. -/
theorem C90_diff (h : DiffCmd b crc sched name verbose left right fs script st out) (hp : st ≠ .panic) :
    (st = .error ∧ out = [] ∧ ∃ res, Diff.Runs crc (fs.files sched left) (fs.files sched right) verbose res ∧ (res = .cannotOpen ∨ res = .noPackets)) ∨
    ∃ res t ls, Diff.Runs crc (fs.files sched left) (fs.files sched right) verbose res ∧
      ((st = .ok ∧ res = .same t ∧ ls = []) ∨ (st = .error ∧ res = .differ t ls ∧ ls ≠ [])) ∧
      (diffText b (name left) (name right) t ls).2 = true ∧ out = utf8 (diffText b (name left) (name right) t ls).1 := by
  cases h with
  | panicked => exact absurd rfl hp
  | @refused res h1 h2 => exact .inl ⟨rfl, rfl, res, h1, h2⟩
  | @compared res t ls pieces h1 h2 h3 =>
    right
    have hok : ((Stdout.new script).writes pieces).1 = true ∧ (diffText b (name left) (name right) t ls).2 = true := by
      cases ha : ((Stdout.new script).writes pieces).1 <;> cases hb : (diffText b (name left) (name right) t ls).2 <;> simp_all
    refine ⟨res, t, ls, h1, ?_, hok.2, ?_⟩
    · rw [hok.1, hok.2]
      cases res with
      | panic => cases h2
      | cannotOpen => cases h2
      | noPackets => cases h2
      | same t' =>
        simp only [diffParts, Option.some.injEq, Prod.mk.injEq] at h2
        obtain ⟨rfl, rfl⟩ := h2
        exact .inl ⟨rfl, rfl, rfl⟩
      | differ t' ls' =>
        simp only [diffParts, Option.some.injEq, Prod.mk.injEq] at h2
        obtain ⟨rfl, rfl⟩ := h2
        have hne := differ_ne_nil h1
        exact .inr ⟨by simp [hne], rfl, hne⟩
    · have := C90_complete script pieces hok.1 (by rw [h3]; exact utf8_endsLine (diffText_ends _ _ _ _ _))
      rw [h3] at this
      exact this
omit [DecidableEq Path] in
/-- C90: on a healthy output the comparison is printed as it was found, if the counts fit. -/
theorem C90_diff_total (hf : Healthy script) {res : Diff.DResult} {t : Option (List (U16 × Nat × Nat))} {ls : List Diff.Line}
    (h : Diff.Runs crc (fs.files sched left) (fs.files sched right) verbose res) (hp : diffParts res = some (t, ls))
    (hd : (diffText b (name left) (name right) t ls).2 = true) :
    DiffCmd b crc sched name verbose left right fs script (if ls = [] then .ok else .error) (utf8 (diffText b (name left) (name right) t ls).1) := by
  have := DiffCmd.compared (b := b) (name := name) (script := script) (pieces := [utf8 (diffText b (name left) (name right) t ls).1]) h hp (by simp)
  obtain ⟨w1, w2⟩ := C90_healthy script [utf8 (diffText b (name left) (name right) t ls).1] hf
  rw [w1, w2, hd] at this
  simpa using this

theorem same_no_table {l r : List Packet} {t : Option (List (U16 × Nat × Nat))} (h : Diff.compare crc l r false = .same t) : t = none := by
  unfold Diff.compare at h
  split at h
  · dsimp only at h
    split at h
    · cases h
    · split at h
      · cases h
      · injection h with h; exact h.symm
  · cases h

/-- Concrete: `DiffEx`'s two files: the later packet, on the left only, is the greatest key (C54), so nothing is printed but headings, and nothing is lost. -/
example (b : Build) : DiffCmd b DiffEx.crc0 (fun _ : Nat => Reader.ofBytes) (fun _ => ['x']) false 0 1
    (fun p => if p = 0 then some FilterEx.stream else some FilterEx.early) [.accept 5] .ok (utf8 (diffText b ['x'] ['x'] none []).1) := by
  have hr : Diff.Runs DiffEx.crc0 (some DiffEx.both) (some DiffEx.one) false (.same none) := by
    have h := (C54_total DiffEx.crc0 DiffEx.both DiffEx.one _ _ FilterEx.decodes DiffEx.decodes1 false _).2 rfl
    obtain ⟨t, ht⟩ := (C54_partial DiffEx.crc0 DiffEx.both DiffEx.one _ _ false _ FilterEx.delivers DiffEx.delivers1 FilterEx.decodes DiffEx.decodes1 h).2
      ⟨.inl (by simp), .inr (.inl ⟨Spec.packetKey DiffEx.crc0 (FilterEx.latePkt 14), by
        intro x hx
        simp only [List.map_cons, List.map_nil, List.mem_singleton] at hx
        subst hx
        exact .inl (show (1#16) < 2#16 by decide), List.Perm.swap _ _ _⟩)⟩
    have ht' := same_no_table ht
    subst ht'
    rw [ht] at h
    exact h
  exact C90_diff_total (b := b) (script := [.accept 5]) (by unfold Healthy; simp) (left := 0) (right := 1) (name := fun _ => ['x']) (t := none) (ls := []) hr rfl rfl

/-- Concrete: the text of a comparison that found one packet on the left only. -/
example (b : Build) : diffText b ['a'] ['b'] none [.left ⟨1#16, 2#16, 3#32⟩] =
    ("\nleft:  a\nright: b\n\nPresent in left, but not right         Present in right, but not left\n=====================================  ===================================\n[apid:   1 seq:     2 crc:         3]  [                                   ]\n".toList, true) := by
  obtain ⟨b⟩ := b
  cases b <;> decide +kernel
end

end Ccsds
