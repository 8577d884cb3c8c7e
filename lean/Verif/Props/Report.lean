import Verif.Model.Report
import Verif.Props.Framing
import Verif.Spec.Report
/-!
# C84, C85: the text reports of `ccsds framing` and `ccsds info`
-/
namespace Ccsds.Report
open Spec.Report (split trim words number labelled labelledNumber cell Safe Tight Plain Shown)

/-! ## Texts -/

theorem split_append {c : Char} (l r : Text) (h : c ∉ l) : split c (l ++ c :: r) = l :: split c r := by
  induction l with
  | nil => simp [split]
  | cons x l ih =>
    have hx : x ≠ c := fun e => h (by simp [e])
    rw [List.cons_append, split, if_neg hx, ih (fun hm => h (by simp [hm]))]

theorem split_last {c : Char} (l : Text) (h : c ∉ l) : split c l = [l] := by
  induction l with
  | nil => simp [split]
  | cons x l ih =>
    have hx : x ≠ c := fun e => h (by simp [e])
    rw [split, if_neg hx, ih (fun hm => h (by simp [hm]))]

theorem escape_id (t : Text) (h : ∀ c ∈ t, Safe c) : escape t = t := by
  induction t with
  | nil => rfl
  | cons c t ih =>
    obtain ⟨h1, h2, h3, h4, h5, h6, h7⟩ := h c (by simp)
    rw [escape, List.flatMap_cons, ← escape, ih (fun x hx => h x (by simp [hx]))]
    simp [escapeChar, h1, h2, h3, h4, h5, h6, h7]

theorem digit_of {n : Nat} {c : Char} (h : c ∈ digits n) : c.isDigit = true := Nat.isDigit_of_mem_toDigits (by decide) (by decide) h

theorem digit_safe {c : Char} (h : c.isDigit = true) : Safe c ∧ c ≠ ' ' ∧ c ≠ '\n' ∧ c ≠ ',' := by
  refine ⟨⟨?_, ?_, ?_, ?_, ?_, ?_, ?_⟩, ?_, ?_, ?_⟩ <;> (rintro rfl; revert h; decide)

theorem dropBlanks (k : Nat) (t : Text) (h : t.head? ≠ some ' ') : (List.replicate k ' ' ++ t).dropWhile (fun c => decide (c = ' ')) = t := by
  induction k with
  | zero =>
    cases t with
    | nil => rfl
    | cons c t =>
      have : c ≠ ' ' := fun e => h (by simp [e])
      simp [this]
  | succ k ih => simpa [List.replicate_succ] using ih

theorem trim_blanks (k j : Nat) (t : Text) (h : Tight t) : trim (List.replicate k ' ' ++ t ++ List.replicate j ' ') = t := by
  obtain ⟨h0, h1, h2⟩ := h
  unfold trim
  rw [List.append_assoc, dropBlanks k _ (by cases t with | nil => exact absurd rfl h0 | cons c t => simpa using h1),
    List.reverse_append, List.reverse_replicate, dropBlanks j _ (by rwa [List.head?_reverse]), List.reverse_reverse]

theorem trim_replicate (k : Nat) : trim (List.replicate k ' ') = [] := by
  unfold trim
  have := dropBlanks k [] (by simp)
  rw [List.append_nil] at this
  rw [this]
  rfl

theorem digits_tight (n : Nat) : Tight (digits n) := by
  refine ⟨Nat.toDigits_ne_nil, ?_, ?_⟩
  · intro h
    exact (digit_safe (digit_of (List.mem_of_head? h))).2.1 rfl
  · intro h
    exact (digit_safe (digit_of (List.mem_of_getLast? h))).2.1 rfl

theorem number_digits (k j n : Nat) : number (List.replicate k ' ' ++ digits n ++ List.replicate j ' ') = some n := by
  unfold number
  rw [trim_blanks k j _ (digits_tight n), if_pos ⟨Nat.toDigits_ne_nil, by rw [List.all_eq_true]; intro c hc; exact digit_of hc⟩]
  exact congrArg some Nat.ofDigitChars_ten_toDigits

theorem leftPad_eq (w : Nat) (t : Text) : leftPad w t = List.replicate (w - t.length) ' ' ++ t := by
  unfold leftPad
  by_cases h : w < t.length
  · simp [h]; omega
  · simp [h]

theorem safe_blank : Safe ' ' := by refine ⟨?_, ?_, ?_, ?_, ?_, ?_, ?_⟩ <;> decide

theorem lpad_safe (w : Nat) (t : Text) (h : ∀ c ∈ t, Safe c) : lpad w t = List.replicate (w - t.length) ' ' ++ t := by
  rw [lpad, leftPad_eq, escape_id]
  intro c hc
  rcases List.mem_append.1 hc with hc | hc
  · rw [(List.mem_replicate.1 hc).2]; exact safe_blank
  · exact h c hc

theorem lpad_digits (w n : Nat) : lpad w (digits n) = List.replicate (w - (digits n).length) ' ' ++ digits n :=
  lpad_safe w _ fun _ hc => (digit_safe (digit_of hc)).1

theorem escape_digits (n : Nat) : escape (digits n) = digits n := escape_id _ fun _ hc => (digit_safe (digit_of hc)).1

theorem digits_length {n k : Nat} (hk : 0 < k) : (digits n).length ≤ k ↔ n < 10 ^ k := Nat.length_toDigits_le_iff (by decide) hk

theorem lpad_length {w n : Nat} (hw : 0 < w) (h : n < 10 ^ w) : (lpad w (digits n)).length = w := by
  have := (digits_length hw).2 h
  rw [lpad_digits, List.length_append, List.length_replicate]
  omega

theorem number_lpad (w n : Nat) : number (lpad w (digits n)) = some n := by
  have := number_digits (w - (digits n).length) 0 n
  rw [lpad_digits]
  simpa using this

theorem lpad_noNewline (w n : Nat) : '\n' ∉ lpad w (digits n) := by
  rw [lpad_digits]
  intro h
  rcases List.mem_append.1 h with h | h
  · have := (List.mem_replicate.1 h).2
    revert this; decide
  · exact (digit_safe (digit_of h)).2.2.1 rfl

theorem digits_noNewline (n : Nat) : '\n' ∉ digits n := fun h => (digit_safe (digit_of h)).2.2.1 rfl

theorem take_col {w : Nat} (l r : Text) (h : l.length = w) : (l ++ r).take w = l := by rw [← h, List.take_left']; rfl
theorem drop_col {w : Nat} (k : Nat) (l r : Text) (h : l.length = w) : (l ++ r).drop (w + k) = r.drop k := by
  rw [← List.drop_drop, ← h, List.drop_left']
  rfl

theorem split_rows {α : Type} (f : α → Text) (as : List α) (h : ∀ a ∈ as, '\n' ∉ f a) :
    split '\n' (as.flatMap fun a => f a ++ ['\n']) = as.map f ++ [[]] := by
  induction as with
  | nil => rfl
  | cons a as ih =>
    rw [List.flatMap_cons, List.append_assoc, List.singleton_append, split_append _ _ (h a (by simp)), ih (fun x hx => h x (by simp [hx]))]
    rfl

theorem mapM_map {α β : Type} (f : α → Text) (g : Text → Option β) (v : α → β) (as : List α) (h : ∀ a ∈ as, g (f a) = some (v a)) :
    (as.map f).mapM g = some (as.map v) := by
  induction as with
  | nil => rfl
  | cons a as ih =>
    rw [List.map_cons, List.mapM_cons, h a (by simp), ih (fun x hx => h x (by simp [hx]))]
    rfl

/-! ## C84  `ccsds framing` -/

/-- A row without its line end. -/
def framingBody (i : Framing.Info) : Text :=
  lpad 4 (digits i.vcid.toNat) ++ (lpad 12 (digits i.tally.frames) ++ (lpad 12 (digits i.tally.bytes) ++ (lpad 12 (digits i.tally.missing) ++
  (lpad 12 (digits i.tally.corrected) ++ (lpad 12 (digits i.tally.uncorrectable) ++ (lpad 12 (digits i.tally.ok) ++ (lpad 12 (digits i.tally.error) ++
  lpad 12 (digits i.tally.notPerformed))))))))

theorem framingRow_eq (i : Framing.Info) : framingRow i = framingBody i ++ ['\n'] := by simp [framingRow, framingBody, List.append_assoc]

theorem framingBody_noNewline (i : Framing.Info) : '\n' ∉ framingBody i := by
  simp only [framingBody, List.mem_append, not_or]
  simp [lpad_noNewline]

/-- Every count has at most 12 digits. -/
def Fits (t : Framing.Tally) : Prop :=
  t.frames < 10 ^ 12 ∧ t.bytes < 10 ^ 12 ∧ t.missing < 10 ^ 12 ∧ t.corrected < 10 ^ 12 ∧ t.uncorrectable < 10 ^ 12 ∧ t.ok < 10 ^ 12 ∧
  t.error < 10 ^ 12 ∧ t.notPerformed < 10 ^ 12

def headings : List Text := words framingHeader

theorem headings_eq : headings = ["VCID".toList, "Frames".toList, "Bytes".toList, "Missing".toList, "Corrected".toList, "Uncorr.".toList, "Ok".toList,
    "Error".toList, "NotPerf.".toList] := by decide +kernel

theorem cell_vcid (row : Text) : cell headings row "VCID" = number (row.take 4) := by
  unfold cell
  rw [show headings.idxOf "VCID".toList = 0 by decide +kernel, if_pos rfl]

theorem cell_of (row : Text) (name : String) (k : Nat) (h : headings.idxOf name.toList = k + 1) :
    cell headings row name = number ((row.drop (4 + 12 * k)).take 12) := by
  unfold cell
  rw [h, if_neg (by omega), Nat.add_sub_cancel]

theorem framing_row (i : Framing.Info) (hv : i.vcid.toNat < 10 ^ 4) (hf : Fits i.tally) :
    Spec.Report.framingRow headings (framingBody i) = some i := by
  obtain ⟨f1, f2, f3, f4, f5, f6, f7, f8⟩ := hf
  have l0 := lpad_length (w := 4) (by decide) hv
  have l1 := lpad_length (w := 12) (by decide) f1
  have l2 := lpad_length (w := 12) (by decide) f2
  have l3 := lpad_length (w := 12) (by decide) f3
  have l4 := lpad_length (w := 12) (by decide) f4
  have l5 := lpad_length (w := 12) (by decide) f5
  have l6 := lpad_length (w := 12) (by decide) f6
  have l7 := lpad_length (w := 12) (by decide) f7
  have l8 := lpad_length (w := 12) (by decide) f8
  have c0 : cell headings (framingBody i) "VCID" = some i.vcid.toNat := by
    rw [cell_vcid, framingBody, take_col _ _ l0, number_lpad]
  have c1 : cell headings (framingBody i) "Frames" = some i.tally.frames := by
    rw [cell_of _ _ 0 (by decide +kernel), framingBody, drop_col _ _ _ l0, List.drop_zero, take_col _ _ l1, number_lpad]
  have c2 : cell headings (framingBody i) "Bytes" = some i.tally.bytes := by
    rw [cell_of _ _ 1 (by decide +kernel), framingBody, drop_col _ _ _ l0, show 12 * 1 = 12 + 0 by rfl, drop_col _ _ _ l1, List.drop_zero, take_col _ _ l2,
      number_lpad]
  have c3 : cell headings (framingBody i) "Missing" = some i.tally.missing := by
    rw [cell_of _ _ 2 (by decide +kernel), framingBody, drop_col _ _ _ l0, show 12 * 2 = 12 + (12 + 0) by rfl, drop_col _ _ _ l1, drop_col _ _ _ l2,
      List.drop_zero, take_col _ _ l3, number_lpad]
  have c4 : cell headings (framingBody i) "Corrected" = some i.tally.corrected := by
    rw [cell_of _ _ 3 (by decide +kernel), framingBody, drop_col _ _ _ l0, show 12 * 3 = 12 + (12 + (12 + 0)) by rfl, drop_col _ _ _ l1,
      drop_col _ _ _ l2, drop_col _ _ _ l3, List.drop_zero, take_col _ _ l4, number_lpad]
  have c5 : cell headings (framingBody i) "Uncorr." = some i.tally.uncorrectable := by
    rw [cell_of _ _ 4 (by decide +kernel), framingBody, drop_col _ _ _ l0, show 12 * 4 = 12 + (12 + (12 + (12 + 0))) by rfl, drop_col _ _ _ l1,
      drop_col _ _ _ l2, drop_col _ _ _ l3, drop_col _ _ _ l4, List.drop_zero, take_col _ _ l5, number_lpad]
  have c6 : cell headings (framingBody i) "Ok" = some i.tally.ok := by
    rw [cell_of _ _ 5 (by decide +kernel), framingBody, drop_col _ _ _ l0, show 12 * 5 = 12 + (12 + (12 + (12 + (12 + 0)))) by rfl, drop_col _ _ _ l1,
      drop_col _ _ _ l2, drop_col _ _ _ l3, drop_col _ _ _ l4, drop_col _ _ _ l5, List.drop_zero, take_col _ _ l6, number_lpad]
  have c7 : cell headings (framingBody i) "Error" = some i.tally.error := by
    rw [cell_of _ _ 6 (by decide +kernel), framingBody, drop_col _ _ _ l0, show 12 * 6 = 12 + (12 + (12 + (12 + (12 + (12 + 0))))) by rfl,
      drop_col _ _ _ l1, drop_col _ _ _ l2, drop_col _ _ _ l3, drop_col _ _ _ l4, drop_col _ _ _ l5, drop_col _ _ _ l6, List.drop_zero, take_col _ _ l7,
      number_lpad]
  have c8 : cell headings (framingBody i) "NotPerf." = some i.tally.notPerformed := by
    rw [cell_of _ _ 7 (by decide +kernel), framingBody, drop_col _ _ _ l0, show 12 * 7 = 12 + (12 + (12 + (12 + (12 + (12 + (12 + 0)))))) by rfl,
      drop_col _ _ _ l1, drop_col _ _ _ l2, drop_col _ _ _ l3, drop_col _ _ _ l4, drop_col _ _ _ l5, drop_col _ _ _ l6, drop_col _ _ _ l7, List.drop_zero,
      List.take_of_length_le (by omega), number_lpad]
  simp [Spec.Report.framingRow, Spec.Report.tally, c0, c1, c2, c3, c4, c5, c6, c7, c8]

/-- The lines above the table. -/
def framingTotals (t : Framing.Tally) : List Text :=
  [framingRule1, "Frames:        ".toList ++ digits t.frames, "Bytes:         ".toList ++ digits t.bytes ++ [' '],
   "Missing:       ".toList ++ digits t.missing, "Corrected:     ".toList ++ digits t.corrected, "Uncorrectable: ".toList ++ digits t.uncorrectable,
   "Ok:            ".toList ++ digits t.ok, "Error:         ".toList ++ digits t.error, "NotPerformed:  ".toList ++ digits t.notPerformed, framingRule2]

theorem label_line (l : Text) (n : Nat) (h : '\n' ∉ l) : '\n' ∉ l ++ digits n := by
  intro hm
  rcases List.mem_append.1 hm with hm | hm
  · exact h hm
  · exact digits_noNewline n hm

theorem framing_lines (s : Framing.Summary) :
    split '\n' (framingText s) = framingTotals s.tally ++ (framingHeader :: framingRule2 :: (s.vcids.map framingBody ++ [[]])) := by
  have hrows : s.vcids.flatMap framingRow = s.vcids.flatMap fun i => framingBody i ++ ['\n'] := by
    rw [show framingRow = fun i => framingBody i ++ ['\n'] from funext framingRow_eq]
  unfold framingText
  simp only [escape_digits]
  rw [split_append _ _ (by decide +kernel), split_append _ _ (label_line _ _ (by decide +kernel)),
    split_append _ _ (by
      intro hm
      rcases List.mem_append.1 hm with hm | hm
      · exact label_line _ _ (by decide +kernel) hm
      · revert hm; decide +kernel),
    split_append _ _ (label_line _ _ (by decide +kernel)), split_append _ _ (label_line _ _ (by decide +kernel)),
    split_append _ _ (label_line _ _ (by decide +kernel)), split_append _ _ (label_line _ _ (by decide +kernel)),
    split_append _ _ (label_line _ _ (by decide +kernel)), split_append _ _ (label_line _ _ (by decide +kernel)),
    split_append _ _ (by decide +kernel), split_append _ _ (by decide +kernel), split_append _ _ (by decide +kernel), hrows,
    split_rows _ _ (fun i _ => framingBody_noNewline i)]
  rfl

theorem labelled_skip (label : String) (l : Text) (ls : List Text) (h : label.toList.isPrefixOf l = false) :
    labelled label (l :: ls) = labelled label ls := by
  simp [labelled, h]

theorem labelled_here (label : String) (l : Text) (ls : List Text) : labelled label ((label.toList ++ l) :: ls) = some l := by
  simp [labelled]

/-- Two labels that differ within the shorter of them. -/
theorem prefix_false (label : String) (c : Nat) (a l : Text) (h : label.toList.take c ≠ a.take c ∧ c ≤ label.toList.length ∧ c ≤ a.length) :
    label.toList.isPrefixOf (a ++ l) = false := by
  rw [Bool.eq_false_iff]
  intro hp
  obtain ⟨r, hr⟩ := List.isPrefixOf_iff_prefix.1 hp
  have := congrArg (List.take c) hr
  rw [List.take_append_of_le_length h.2.1, List.take_append_of_le_length h.2.2] at this
  exact h.1 this

theorem number_here (label : String) (a : Text) (k j n : Nat) (rest : List Text) (ha : a = label.toList ++ List.replicate k ' ') :
    labelledNumber label ((a ++ digits n ++ List.replicate j ' ') :: rest) = some n := by
  rw [labelledNumber, ha, List.append_assoc, List.append_assoc, labelled_here, Option.bind_some, ← List.append_assoc, number_digits]

theorem number_skip (label : String) (l : Text) (ls : List Text) (h : label.toList.isPrefixOf l = false) :
    labelledNumber label (l :: ls) = labelledNumber label ls := by rw [labelledNumber, labelled_skip _ _ _ h]; rfl

/-- The lines above the table, one after the other. -/
theorem framingTotals_cons (t : Framing.Tally) (rest : List Text) : framingTotals t ++ rest =
    framingRule1 :: ("Frames:        ".toList ++ digits t.frames ++ List.replicate 0 ' ') :: ("Bytes:         ".toList ++ digits t.bytes ++ List.replicate 1 ' ') ::
    ("Missing:       ".toList ++ digits t.missing ++ List.replicate 0 ' ') :: ("Corrected:     ".toList ++ digits t.corrected ++ List.replicate 0 ' ') ::
    ("Uncorrectable: ".toList ++ digits t.uncorrectable ++ List.replicate 0 ' ') :: ("Ok:            ".toList ++ digits t.ok ++ List.replicate 0 ' ') ::
    ("Error:         ".toList ++ digits t.error ++ List.replicate 0 ' ') :: ("NotPerformed:  ".toList ++ digits t.notPerformed ++ List.replicate 0 ' ') ::
    framingRule2 :: rest := by
  simp only [framingTotals, List.cons_append, List.nil_append, List.replicate_zero, List.append_nil, List.replicate_one]

theorem prefix_line (label : String) (c : Nat) (a l m : Text) (h : label.toList.take c ≠ a.take c ∧ c ≤ label.toList.length ∧ c ≤ a.length) :
    label.toList.isPrefixOf (a ++ l ++ m) = false := by
  rw [List.append_assoc]
  exact prefix_false label c a _ h

theorem total_frames (t : Framing.Tally) (rest : List Text) : labelledNumber "Frames:" (framingTotals t ++ rest) = some t.frames := by
  rw [framingTotals_cons, number_skip _ _ _ (by decide +kernel), number_here _ _ 8 _ _ _ (by decide +kernel)]

theorem total_bytes (t : Framing.Tally) (rest : List Text) : labelledNumber "Bytes:" (framingTotals t ++ rest) = some t.bytes := by
  rw [framingTotals_cons, number_skip _ _ _ (by decide +kernel), number_skip _ _ _ (prefix_line _ 2 _ _ _ (by decide +kernel)), number_here _ _ 9 _ _ _ (by decide +kernel)]

theorem total_missing (t : Framing.Tally) (rest : List Text) : labelledNumber "Missing:" (framingTotals t ++ rest) = some t.missing := by
  rw [framingTotals_cons, number_skip _ _ _ (by decide +kernel), number_skip _ _ _ (prefix_line _ 2 _ _ _ (by decide +kernel)), number_skip _ _ _ (prefix_line _ 2 _ _ _ (by decide +kernel)), number_here _ _ 7 _ _ _ (by decide +kernel)]

theorem total_corrected (t : Framing.Tally) (rest : List Text) : labelledNumber "Corrected:" (framingTotals t ++ rest) = some t.corrected := by
  rw [framingTotals_cons, number_skip _ _ _ (by decide +kernel), number_skip _ _ _ (prefix_line _ 2 _ _ _ (by decide +kernel)), number_skip _ _ _ (prefix_line _ 2 _ _ _ (by decide +kernel)), number_skip _ _ _ (prefix_line _ 2 _ _ _ (by decide +kernel)), number_here _ _ 5 _ _ _ (by decide +kernel)]

theorem total_uncorrectable (t : Framing.Tally) (rest : List Text) : labelledNumber "Uncorrectable:" (framingTotals t ++ rest) = some t.uncorrectable := by
  rw [framingTotals_cons, number_skip _ _ _ (by decide +kernel), number_skip _ _ _ (prefix_line _ 2 _ _ _ (by decide +kernel)), number_skip _ _ _ (prefix_line _ 2 _ _ _ (by decide +kernel)), number_skip _ _ _ (prefix_line _ 2 _ _ _ (by decide +kernel)), number_skip _ _ _ (prefix_line _ 2 _ _ _ (by decide +kernel)), number_here _ _ 1 _ _ _ (by decide +kernel)]

theorem total_ok (t : Framing.Tally) (rest : List Text) : labelledNumber "Ok:" (framingTotals t ++ rest) = some t.ok := by
  rw [framingTotals_cons, number_skip _ _ _ (by decide +kernel), number_skip _ _ _ (prefix_line _ 2 _ _ _ (by decide +kernel)), number_skip _ _ _ (prefix_line _ 2 _ _ _ (by decide +kernel)), number_skip _ _ _ (prefix_line _ 2 _ _ _ (by decide +kernel)), number_skip _ _ _ (prefix_line _ 2 _ _ _ (by decide +kernel)), number_skip _ _ _ (prefix_line _ 2 _ _ _ (by decide +kernel)), number_here _ _ 12 _ _ _ (by decide +kernel)]

theorem total_error (t : Framing.Tally) (rest : List Text) : labelledNumber "Error:" (framingTotals t ++ rest) = some t.error := by
  rw [framingTotals_cons, number_skip _ _ _ (by decide +kernel), number_skip _ _ _ (prefix_line _ 2 _ _ _ (by decide +kernel)), number_skip _ _ _ (prefix_line _ 2 _ _ _ (by decide +kernel)), number_skip _ _ _ (prefix_line _ 2 _ _ _ (by decide +kernel)), number_skip _ _ _ (prefix_line _ 2 _ _ _ (by decide +kernel)), number_skip _ _ _ (prefix_line _ 2 _ _ _ (by decide +kernel)), number_skip _ _ _ (prefix_line _ 2 _ _ _ (by decide +kernel)), number_here _ _ 9 _ _ _ (by decide +kernel)]

theorem total_notPerformed (t : Framing.Tally) (rest : List Text) : labelledNumber "NotPerformed:" (framingTotals t ++ rest) = some t.notPerformed := by
  rw [framingTotals_cons, number_skip _ _ _ (by decide +kernel), number_skip _ _ _ (prefix_line _ 2 _ _ _ (by decide +kernel)), number_skip _ _ _ (prefix_line _ 2 _ _ _ (by decide +kernel)), number_skip _ _ _ (prefix_line _ 2 _ _ _ (by decide +kernel)), number_skip _ _ _ (prefix_line _ 2 _ _ _ (by decide +kernel)), number_skip _ _ _ (prefix_line _ 2 _ _ _ (by decide +kernel)), number_skip _ _ _ (prefix_line _ 2 _ _ _ (by decide +kernel)), number_skip _ _ _ (prefix_line _ 2 _ _ _ (by decide +kernel)), number_here _ _ 2 _ _ _ (by decide +kernel)]

theorem framing_totals (t : Framing.Tally) (rest : List Text) :
    Spec.Report.tally (fun name => labelledNumber (name ++ ":") (framingTotals t ++ rest)) "Corrected" "Uncorrectable" "NotPerformed" = some t := by
  unfold Spec.Report.tally
  dsimp only
  rw [show "Frames" ++ ":" = "Frames:" by decide +kernel, total_frames]
  rw [show "Bytes" ++ ":" = "Bytes:" by decide +kernel, total_bytes]
  rw [show "Missing" ++ ":" = "Missing:" by decide +kernel, total_missing]
  rw [show "Corrected" ++ ":" = "Corrected:" by decide +kernel, total_corrected]
  rw [show "Uncorrectable" ++ ":" = "Uncorrectable:" by decide +kernel, total_uncorrectable]
  rw [show "Ok" ++ ":" = "Ok:" by decide +kernel, total_ok]
  rw [show "Error" ++ ":" = "Error:" by decide +kernel, total_error]
  rw [show "NotPerformed" ++ ":" = "NotPerformed:" by decide +kernel, total_notPerformed]
  rfl

theorem framingBody_ne (i : Framing.Info) : framingBody i ≠ [] := by
  intro h
  have := (List.append_eq_nil_iff.1 h).1
  rw [lpad_digits, List.append_eq_nil_iff] at this
  exact Nat.toDigits_ne_nil this.2

theorem heading_skip (label : String) (a l m : Text) (ls : List Text) (h : label.toList.take 1 ≠ a.take 1 ∧ 1 ≤ label.toList.length ∧ 1 ≤ a.length) :
    ((a ++ l ++ m) :: ls).dropWhile (fun l => !label.toList.isPrefixOf l) = ls.dropWhile (fun l => !label.toList.isPrefixOf l) := by
  rw [List.dropWhile_cons_of_pos]
  rw [prefix_line label 1 a l m h]
  rfl

/-- **C84.** From the text that `ccsds framing` prints, every total can be read behind its label and every count of every virtual channel in the row
of that channel, in the 12 columns under its heading, as long as no channel's count has more than 12 digits (and VCIDs at most 4: they have 2). -/
theorem C84_readable (s : Framing.Summary) (hs : ∀ i ∈ s.vcids, i.vcid.toNat < 10 ^ 4 ∧ Fits i.tally) :
    Spec.Report.framing (framingText s) = some s := by
  unfold Spec.Report.framing
  simp only [framing_lines, framing_totals]
  have hd : (framingTotals s.tally ++ (framingHeader :: framingRule2 :: (s.vcids.map framingBody ++ [[]]))).dropWhile
      (fun l => !"VCID".toList.isPrefixOf l) = framingHeader :: framingRule2 :: (s.vcids.map framingBody ++ [[]]) := by
    rw [framingTotals_cons]
    rw [List.dropWhile_cons_of_pos (by decide +kernel), heading_skip _ _ _ _ _ (by decide +kernel), heading_skip _ _ _ _ _ (by decide +kernel),
      heading_skip _ _ _ _ _ (by decide +kernel), heading_skip _ _ _ _ _ (by decide +kernel), heading_skip _ _ _ _ _ (by decide +kernel),
      heading_skip _ _ _ _ _ (by decide +kernel), heading_skip _ _ _ _ _ (by decide +kernel), heading_skip _ _ _ _ _ (by decide +kernel),
      List.dropWhile_cons_of_pos (by decide +kernel), List.dropWhile_cons_of_neg (by decide +kernel)]
  rw [hd]
  have hf : (((framingHeader :: framingRule2 :: (s.vcids.map framingBody ++ [[]])).drop 2).filter fun l => decide (l ≠ [])) = s.vcids.map framingBody := by
    rw [List.drop_succ_cons, List.drop_succ_cons, List.drop_zero, List.filter_append]
    rw [List.filter_eq_self.2]
    · simp
    · intro l hl
      obtain ⟨i, _, rfl⟩ := List.mem_map.1 hl
      simpa using framingBody_ne i
  rw [hf, List.head?_cons, Option.getD_some, ← headings]
  rw [mapM_map framingBody _ id _ (fun i hi => framing_row i (hs i hi).1 (hs i hi).2), List.map_id]
  rfl

/-- For the command: the VCIDs of decoded frames are below 64, and no channel's count is above the total, so it is enough that the totals have at most 12
digits. -/
theorem C84_command (a : Framing.Args) (fs : List Frame) (s : Framing.Summary) (w : List (List U8)) (h : Framing.Finishes a fs s w)
    (hv : ∀ f ∈ fs, f.header.vcid.toNat < 64) (hf : Fits s.tally) : Spec.Report.framing (framingText s) = some s := by
  apply C84_readable
  intro i hi
  obtain ⟨r, _⟩ := (C57_summary a fs).1 s w h
  obtain ⟨f, hfw, e⟩ := (r.channels i.vcid).1 ⟨i, hi, rfl⟩
  have hm := hv f (List.mem_filter.1 hfw).1
  rw [e] at hm
  obtain ⟨t1, t2, t3, t4, t5, t6, t7, t8⟩ := C57_totals a fs s w h
  have le : ∀ u : Framing.Info → Nat, u i ≤ (s.vcids.map u).sum := by
    intro u
    clear h hv hf r hfw t1 t2 t3 t4 t5 t6 t7 t8
    revert hi
    generalize s.vcids = l
    intro hi
    induction l with
    | nil => cases hi
    | cons x l ih =>
      rw [List.map_cons, List.sum_cons]
      rcases List.mem_cons.1 hi with rfl | hi
      · omega
      · have := ih hi; omega
  obtain ⟨f1, f2, f3, f4, f5, f6, f7, f8⟩ := hf
  have l1 := le (·.tally.frames)
  have l2 := le (·.tally.bytes)
  have l3 := le (·.tally.missing)
  have l4 := le (·.tally.ok)
  have l5 := le (·.tally.corrected)
  have l6 := le (·.tally.uncorrectable)
  have l7 := le (·.tally.error)
  have l8 := le (·.tally.notPerformed)
  exact ⟨by omega, by omega, by omega, by omega, by omega, by omega, by omega, by omega, by omega⟩

/-- Decoded headers have such VCIDs. -/
theorem C84_vcid (d : List U8) (h : VCDUHeader) (he : VCDUHeader.decode d = some h) : h.vcid.toNat < 64 := by
  unfold VCDUHeader.decode at he
  split at he
  · dsimp only at he
    split at he
    · cases he
      simp only [VCDUHeader.decodeV1, BitVec.toNat_and]
      exact Nat.lt_of_le_of_lt Nat.and_le_right (by decide)
    · split at he
      · cases he
        simp only [VCDUHeader.decodeV2, BitVec.toNat_and]
        exact Nat.lt_of_le_of_lt Nat.and_le_right (by decide)
      · cases he
  · cases he

/-- Different summaries are printed as different texts. -/
theorem C84_injective (s s' : Framing.Summary) (hs : ∀ i ∈ s.vcids, i.vcid.toNat < 10 ^ 4 ∧ Fits i.tally)
    (hs' : ∀ i ∈ s'.vcids, i.vcid.toNat < 10 ^ 4 ∧ Fits i.tally) (h : framingText s = framingText s') : s = s' := by
  have h1 := C84_readable s hs
  rw [h, C84_readable s' hs'] at h1
  exact (Option.some.inj h1).symm

/-- The bound is needed: two rows with counts beyond it that are printed alike. -/
theorem C84_bound : ∃ i j : Framing.Info, i ≠ j ∧ framingRow i = framingRow j ∧ i.tally.bytes ≠ j.tally.bytes := by
  refine ⟨⟨1#16, ⟨1000, 1111111111111, 1111111111111, 0, 0, 0, 0, 0⟩⟩, ⟨1#16, ⟨1000, 11111111111111, 111111111111, 0, 0, 0, 0, 0⟩⟩, ?_⟩
  decide +kernel

/-- Two channels. -/
example : Spec.Report.framing (framingText ⟨⟨3, 7, 3, 1, 1, 1, 0, 0⟩, [⟨4, ⟨1, 2, 1, 1, 0, 0, 0, 0⟩⟩, ⟨9, ⟨2, 5, 2, 0, 1, 1, 0, 0⟩⟩]⟩) =
    some ⟨⟨3, 7, 3, 1, 1, 1, 0, 0⟩, [⟨4, ⟨1, 2, 1, 1, 0, 0, 0, 0⟩⟩, ⟨9, ⟨2, 5, 2, 0, 1, 1, 0, 0⟩⟩]⟩ :=
  C84_readable _ (by simp [Fits])

/-! ## C85  `ccsds info` -/

theorem dropWhile_nil (p : Char → Bool) (l : Text) (h : l.dropWhile p = []) : ∀ c ∈ l, p c = true := by
  induction l with
  | nil => intro c hc; cases hc
  | cons x l ih =>
    by_cases hx : p x = true
    · rw [List.dropWhile_cons_of_pos hx] at h
      intro c hc
      rcases List.mem_cons.1 hc with rfl | hc
      · exact hx
      · exact ih h c hc
    · rw [List.dropWhile_cons_of_neg hx] at h
      cases h

theorem trim_ne (t : Text) (c : Char) (hc : c ∈ t) (hb : c ≠ ' ') : trim t ≠ [] := by
  intro h
  unfold trim at h
  rw [List.reverse_eq_nil_iff] at h
  replace h := dropWhile_nil _ _ h
  have hm : c ∈ t.dropWhile (fun c => decide (c = ' ')) := by
    rw [← List.takeWhile_append_dropWhile (p := fun c => decide (c = ' ')) (l := t)] at hc
    rcases List.mem_append.1 hc with hc | hc
    · exact absurd (of_decide_eq_true (List.all_eq_true.1 List.all_takeWhile c hc)) hb
    · exact hc
  exact hb (of_decide_eq_true (h c (by simpa using hm)))

theorem words_blanks (k : Nat) (t : Text) : words (List.replicate k ' ' ++ t) = words t := by
  induction k with
  | zero => simp
  | succ k ih =>
    rw [List.replicate_succ, List.cons_append]
    show (split ' ' (' ' :: (List.replicate k ' ' ++ t))).filter _ = _
    rw [split, if_pos rfl, List.filter_cons_of_neg (by simp)]
    exact ih

theorem words_cons (t r : Text) (h : ' ' ∉ t) (hn : t ≠ []) : words (t ++ ' ' :: r) = t :: words r := by
  unfold words
  rw [split_append _ _ h, List.filter_cons_of_pos (by simpa using hn)]

theorem words_one (t : Text) (h : ' ' ∉ t) (hn : t ≠ []) : words t = [t] := by
  unfold words
  rw [split_last _ h, List.filter_cons_of_pos (by simpa using hn)]
  rfl

theorem digits_noBlank (n : Nat) : ' ' ∉ digits n := fun h => (digit_safe (digit_of h)).2.1 rfl
theorem digits_noComma (n : Nat) : ',' ∉ digits n := fun h => (digit_safe (digit_of h)).2.2.2 rfl

theorem number_plain (n : Nat) : number (digits n) = some n := by
  have := number_digits 0 0 n
  simpa using this

/-- The contract of `hifitime`'s text for epochs: at most 33 characters, as in `2020-01-01T00:00:00.000000000 UTC`. -/
def ShowsTimes (showE : Epoch → Text) : Prop := ∀ e, Plain (showE e) ∧ (showE e).length ≤ 33

variable {showE : Epoch → Text}

theorem showTime_safe (h : ShowsTimes showE) (o : Option Epoch) : ∀ c ∈ showTime showE o, Safe c := by
  cases o with
  | none => intro c hc; cases hc
  | some e => exact (h e).1.2.2

theorem showTime_noNewline (h : ShowsTimes showE) (o : Option Epoch) : '\n' ∉ showTime showE o := by
  cases o with
  | none => intro hc; cases hc
  | some e => exact (h e).1.2.1

theorem showTime_length (h : ShowsTimes showE) (o : Option Epoch) : (showTime showE o).length ≤ 33 := by
  cases o with
  | none => simp [showTime]
  | some e => exact (h e).2

theorem time_blanks (h : ShowsTimes showE) (k j : Nat) (o : Option Epoch) :
    Spec.Report.time (List.replicate k ' ' ++ showTime showE o ++ List.replicate j ' ') = o.map showE := by
  unfold Spec.Report.time
  cases o with
  | none =>
    rw [showTime, List.append_nil, List.replicate_append_replicate, trim_replicate]
    rfl
  | some e =>
    rw [showTime, trim_blanks k j _ (h e).1.1, if_neg (h e).1.1.1]
    rfl

/-- A row without its line end. -/
def infoBody (showE : Epoch → Text) (a : U16 × Info.ISummary) : Text :=
  lpad 6 (digits a.1.toNat) ++ (List.replicate 2 ' ' ++ (lpad 33 (showTime showE a.2.first) ++ (List.replicate 2 ' ' ++
  (lpad 33 (showTime showE a.2.last) ++ (List.replicate 3 ' ' ++ (lpad 6 (digits a.2.total) ++ (List.replicate 3 ' ' ++ lpad 7 (digits a.2.missing))))))))

theorem infoRow_eq (a : U16 × Info.ISummary) : infoRow showE a = infoBody showE a ++ ['\n'] := by
  rw [infoRow, infoBody, show "  ".toList = List.replicate 2 ' ' by decide, show "   ".toList = List.replicate 3 ' ' by decide]
  simp only [List.append_assoc]

theorem replicate_noNewline (k : Nat) : '\n' ∉ List.replicate k ' ' := by
  intro h
  have := (List.mem_replicate.1 h).2
  revert this; decide

theorem lpad_time_noNewline (h : ShowsTimes showE) (w : Nat) (o : Option Epoch) : '\n' ∉ lpad w (showTime showE o) := by
  rw [lpad_safe w _ (showTime_safe h o)]
  intro hm
  rcases List.mem_append.1 hm with hm | hm
  · exact replicate_noNewline _ hm
  · exact showTime_noNewline h o hm

theorem infoBody_noNewline (h : ShowsTimes showE) (a : U16 × Info.ISummary) : '\n' ∉ infoBody showE a := by
  simp only [infoBody, List.mem_append, not_or]
  exact ⟨lpad_noNewline _ _, replicate_noNewline _, lpad_time_noNewline h _ _, replicate_noNewline _, lpad_time_noNewline h _ _, replicate_noNewline _,
    lpad_noNewline _ _, replicate_noNewline _, lpad_noNewline _ _⟩

theorem infoBody_ne (a : U16 × Info.ISummary) : infoBody showE a ≠ [] := by
  intro h
  have := (List.append_eq_nil_iff.1 h).1
  rw [lpad_digits, List.append_eq_nil_iff] at this
  exact Nat.toDigits_ne_nil this.2

/-- A summary as it is shown. -/
def shown (showE : Epoch → Text) (s : Info.ISummary) : Shown := ⟨s.total, s.missing, s.first.map showE, s.last.map showE⟩

theorem info_row (h : ShowsTimes showE) (a : U16 × Info.ISummary) :
    Spec.Report.infoRow (infoBody showE a) = some (a.1.toNat, shown showE a.2) := by
  have l0 : (lpad 6 (digits a.1.toNat)).length = 6 := lpad_length (by decide) (by have := a.1.isLt; omega)
  have ll : ∀ o, (lpad 33 (showTime showE o)).length = 33 := by
    intro o
    have := showTime_length h o
    rw [lpad_safe _ _ (showTime_safe h o), List.length_append, List.length_replicate]
    omega
  have lt : ∀ o, Spec.Report.time (lpad 33 (showTime showE o)) = o.map showE := by
    intro o
    have := time_blanks h (33 - (showTime showE o).length) 0 o
    rw [lpad_safe _ _ (showTime_safe h o)]
    simpa using this
  have r2 : (List.replicate 2 ' ').length = 2 := by simp
  have r3 : (List.replicate 3 ' ').length = 3 := by simp
  have c0 : number ((infoBody showE a).take 6) = some a.1.toNat := by rw [infoBody, take_col _ _ l0, number_lpad]
  have c1 : Spec.Report.time (((infoBody showE a).drop 8).take 33) = a.2.first.map showE := by
    rw [infoBody, show 8 = 6 + (2 + 0) by rfl, drop_col _ _ _ l0, drop_col _ _ _ r2, List.drop_zero, take_col _ _ (ll _), lt]
  have c2 : Spec.Report.time (((infoBody showE a).drop 43).take 33) = a.2.last.map showE := by
    rw [infoBody, show 43 = 6 + (2 + (33 + (2 + 0))) by rfl, drop_col _ _ _ l0, drop_col _ _ _ r2, drop_col _ _ _ (ll _), drop_col _ _ _ r2,
      List.drop_zero, take_col _ _ (ll _), lt]
  have c3 : words ((infoBody showE a).drop 79) = [digits a.2.total, digits a.2.missing] := by
    rw [infoBody, show 79 = 6 + (2 + (33 + (2 + (33 + (3 + 0))))) by rfl, drop_col _ _ _ l0, drop_col _ _ _ r2, drop_col _ _ _ (ll _),
      drop_col _ _ _ r2, drop_col _ _ _ (ll _), drop_col _ _ _ r3, List.drop_zero, lpad_digits, lpad_digits, List.append_assoc, words_blanks,
      show List.replicate 3 ' ' = ' ' :: List.replicate 2 ' ' by rfl, List.cons_append,
      words_cons _ _ (digits_noBlank _) Nat.toDigits_ne_nil, words_blanks, words_blanks, words_one _ (digits_noBlank _) Nat.toDigits_ne_nil]
  unfold Spec.Report.infoRow
  rw [c0, c3, c1, c2]
  simp only [number_plain]
  rfl

theorem apids_pieces (l : List U16) : ∀ (k : Nat) (a : U16), split ',' (List.replicate k ' ' ++ infoApids (a :: l)) =
    (List.replicate k ' ' ++ digits a.toNat) :: l.map fun b => List.replicate 1 ' ' ++ digits b.toNat := by
  have hb : ∀ k n, ',' ∉ List.replicate k ' ' ++ digits n := by
    intro k n hm
    rcases List.mem_append.1 hm with hm | hm
    · have := (List.mem_replicate.1 hm).2
      revert this; decide
    · exact digits_noComma n hm
  induction l with
  | nil =>
    intro k a
    rw [infoApids, escape_digits, split_last _ (hb _ _)]
    rfl
  | cons b l ih =>
    intro k a
    rw [infoApids, escape_digits, show ", ".toList = ',' :: List.replicate 1 ' ' by decide, List.append_assoc, List.cons_append, ← List.append_assoc,
      split_append _ _ (hb _ _), ih 1 b]
    rfl

theorem apids_read (l : List U16) (k : Nat) :
    Spec.Report.apidList (List.replicate k ' ' ++ infoApids l) = some (l.map BitVec.toNat) := by
  unfold Spec.Report.apidList
  cases l with
  | nil => rw [infoApids, List.append_nil, trim_replicate, if_pos rfl]; rfl
  | cons a l =>
    have hne : trim (List.replicate k ' ' ++ infoApids (a :: l)) ≠ [] := by
      have hm : ∃ c ∈ digits a.toNat, c ∈ infoApids (a :: l) := by
        cases hd : digits a.toNat with
        | nil => exact absurd hd Nat.toDigits_ne_nil
        | cons c cs =>
          refine ⟨c, by simp, ?_⟩
          cases l with
          | nil => rw [infoApids, escape_digits, hd]; simp
          | cons b l => rw [infoApids, escape_digits, hd]; simp
      obtain ⟨c, h1, h2⟩ := hm
      exact trim_ne _ c (by simp [h2]) (digit_safe (digit_of h1)).2.1
    have num1 : ∀ j n, number (List.replicate j ' ' ++ digits n) = some n := fun j n => by
      have := number_digits j 0 n
      simpa using this
    rw [if_neg hne, apids_pieces, List.mapM_cons, num1]
    have := mapM_map (fun b : U16 => List.replicate 1 ' ' ++ digits b.toNat) number BitVec.toNat l (fun b _ => num1 1 b.toNat)
    rw [this]
    rfl

/-- What is to be read off. -/
def infoReport (showE : Epoch → Text) (showD : Int → Text) (filename : Text) (i : Info.Info) : Spec.Report.InfoReport :=
  ⟨filename, shown showE i.summary, showD i.summary.duration, i.apids.map (·.1.toNat), i.apids.map fun a => (a.1.toNat, shown showE a.2)⟩

theorem infoApids_noNewline (l : List U16) : '\n' ∉ infoApids l := by
  induction l with
  | nil => simp [infoApids]
  | cons a l ih =>
    cases l with
    | nil => rw [infoApids, escape_digits]; exact digits_noNewline _
    | cons b l =>
      rw [infoApids, escape_digits]
      simp only [List.mem_append, not_or]
      exact ⟨⟨digits_noNewline _, by decide⟩, ih⟩

theorem noNewline_append {l m : Text} (h1 : '\n' ∉ l) (h2 : '\n' ∉ m) : '\n' ∉ l ++ m := by
  simp only [List.mem_append, not_or]
  exact ⟨h1, h2⟩

theorem escape_noNewline (t : Text) (h : '\n' ∉ t) : '\n' ∉ escape t := by
  intro hm
  obtain ⟨c, hc, hm⟩ := List.mem_flatMap.1 hm
  have hne : c ≠ '\n' := fun e => h (e ▸ hc)
  unfold escapeChar at hm
  repeat' split at hm
  all_goals first | (revert hm; decide) | skip
  exact hne (List.mem_singleton.1 hm).symm

theorem labelled_at (label : String) (a l : Text) (k : Nat) (ls : List Text) (ha : a = label.toList ++ List.replicate k ' ') :
    labelled label ((a ++ l) :: ls) = some (List.replicate k ' ' ++ l) := by
  rw [ha, List.append_assoc, labelled_here]

theorem labelled_next (label : String) (a l : Text) (ls : List Text)
    (h : label.toList.take 2 ≠ a.take 2 ∧ 2 ≤ label.toList.length ∧ 2 ≤ a.length) : labelled label ((a ++ l) :: ls) = labelled label ls :=
  labelled_skip _ _ _ (prefix_false label 2 a l h)

theorem heading_next (label : String) (c : Nat) (a l : Text) (ls : List Text) (h : label.toList.take c ≠ a.take c ∧ c ≤ label.toList.length ∧ c ≤ a.length) :
    ((a ++ l) :: ls).dropWhile (fun l => !label.toList.isPrefixOf l) = ls.dropWhile (fun l => !label.toList.isPrefixOf l) := by
  rw [List.dropWhile_cons_of_pos]
  rw [prefix_false label c a l h]
  rfl

/-- The lines below the file name. -/
def infoLines (showE : Epoch → Text) (showD : Int → Text) (i : Info.Info) : List Text :=
  infoRule1 :: ("First:    ".toList ++ (showTime showE i.summary.first ++ List.replicate 0 ' ')) ::
  ("Last:     ".toList ++ (showTime showE i.summary.last ++ List.replicate 1 ' ')) :: ("Duration: ".toList ++ showD i.summary.duration) ::
  ("APIDS:    ".toList ++ infoApids (i.apids.map (·.1))) :: ("Count:    ".toList ++ digits i.summary.total) ::
  ("Missing:  ".toList ++ digits i.summary.missing) :: infoRule2 :: infoHeader :: infoRule2 :: (i.apids.map (infoBody showE) ++ [[]])

theorem info_lines (h : ShowsTimes showE) {showD : Int → Text} (hd : ∀ d, Plain (showD d)) (filename : Text) (hf : '\n' ∉ filename) (i : Info.Info) :
    split '\n' (infoText showE showD filename i) = escape filename :: infoLines showE showD i := by
  have hrows : i.apids.flatMap (infoRow showE) = i.apids.flatMap fun a => infoBody showE a ++ ['\n'] := by
    rw [show infoRow showE = fun a => infoBody showE a ++ ['\n'] from funext infoRow_eq]
  unfold infoText
  rw [escape_id _ (showTime_safe h _), escape_id _ (showTime_safe h _), escape_id _ (hd _).2.2, escape_digits, escape_digits, hrows,
    split_append _ _ (escape_noNewline _ hf), split_append _ _ (by decide +kernel),
    split_append _ _ (noNewline_append (by decide +kernel) (showTime_noNewline h _)),
    split_append _ _ (noNewline_append (noNewline_append (by decide +kernel) (showTime_noNewline h _)) (by decide)),
    split_append _ _ (noNewline_append (by decide +kernel) (hd _).2.1), split_append _ _ (noNewline_append (by decide +kernel) (infoApids_noNewline _)),
    split_append _ _ (noNewline_append (by decide +kernel) (digits_noNewline _)), split_append _ _ (noNewline_append (by decide +kernel) (digits_noNewline _)),
    split_append _ _ (by decide +kernel), split_append _ _ (by decide +kernel), split_append _ _ (by decide +kernel),
    split_rows _ _ (fun a _ => infoBody_noNewline h a)]
  simp only [infoLines, List.append_assoc, List.replicate_zero, List.append_nil, List.replicate_one]

theorem info_labels (h : ShowsTimes showE) {showD : Int → Text} (hd : ∀ d, Plain (showD d)) (i : Info.Info) :
    (labelled "First:" (infoLines showE showD i)).map Spec.Report.time = some (i.summary.first.map showE) ∧
    (labelled "Last:" (infoLines showE showD i)).map Spec.Report.time = some (i.summary.last.map showE) ∧
    (labelled "Duration:" (infoLines showE showD i)).map trim = some (showD i.summary.duration) ∧
    labelled "APIDS:" (infoLines showE showD i) = some (List.replicate 4 ' ' ++ infoApids (i.apids.map (·.1))) ∧
    labelledNumber "Count:" (infoLines showE showD i) = some i.summary.total ∧
    labelledNumber "Missing:" (infoLines showE showD i) = some i.summary.missing := by
  have num1 : ∀ j n, number (List.replicate j ' ' ++ digits n) = some n := fun j n => by
    have := number_digits j 0 n
    simpa using this
  unfold infoLines labelledNumber
  refine ⟨?_, ?_, ?_, ?_, ?_, ?_⟩
  · rw [labelled_skip _ _ _ (by decide +kernel), labelled_at _ _ _ 4 _ (by decide +kernel), Option.map_some, ← List.append_assoc, time_blanks h]
  · rw [labelled_skip _ _ _ (by decide +kernel), labelled_next _ _ _ _ (by decide +kernel), labelled_at _ _ _ 5 _ (by decide +kernel), Option.map_some,
      ← List.append_assoc, time_blanks h]
  · rw [labelled_skip _ _ _ (by decide +kernel), labelled_next _ _ _ _ (by decide +kernel), labelled_next _ _ _ _ (by decide +kernel),
      labelled_at _ _ _ 1 _ (by decide +kernel), Option.map_some]
    have := trim_blanks 1 0 _ (hd i.summary.duration).1
    rw [List.replicate_zero, List.append_nil] at this
    rw [this]
  · rw [labelled_skip _ _ _ (by decide +kernel), labelled_next _ _ _ _ (by decide +kernel), labelled_next _ _ _ _ (by decide +kernel),
      labelled_next _ _ _ _ (by decide +kernel), labelled_at _ _ _ 4 _ (by decide +kernel)]
  · rw [labelled_skip _ _ _ (by decide +kernel), labelled_next _ _ _ _ (by decide +kernel), labelled_next _ _ _ _ (by decide +kernel),
      labelled_next _ _ _ _ (by decide +kernel), labelled_next _ _ _ _ (by decide +kernel), labelled_at _ _ _ 4 _ (by decide +kernel), Option.bind_some, num1]
  · rw [labelled_skip _ _ _ (by decide +kernel), labelled_next _ _ _ _ (by decide +kernel), labelled_next _ _ _ _ (by decide +kernel),
      labelled_next _ _ _ _ (by decide +kernel), labelled_next _ _ _ _ (by decide +kernel), labelled_next _ _ _ _ (by decide +kernel),
      labelled_at _ _ _ 2 _ (by decide +kernel), Option.bind_some, num1]

theorem info_table (showE : Epoch → Text) (showD : Int → Text) (i : Info.Info) :
    (infoLines showE showD i).dropWhile (fun l => !"APID ".toList.isPrefixOf l) = infoHeader :: infoRule2 :: (i.apids.map (infoBody showE) ++ [[]]) := by
  unfold infoLines
  rw [List.dropWhile_cons_of_pos (by decide +kernel), heading_next _ 1 _ _ _ (by decide +kernel), heading_next _ 1 _ _ _ (by decide +kernel),
    heading_next _ 1 _ _ _ (by decide +kernel), heading_next _ 5 _ _ _ (by decide +kernel), heading_next _ 1 _ _ _ (by decide +kernel),
    heading_next _ 1 _ _ _ (by decide +kernel), List.dropWhile_cons_of_pos (by decide +kernel), List.dropWhile_cons_of_neg (by decide +kernel)]

/-- From the text that `ccsds info` prints, all counts (of any size) and times of the file and of each APID can be read; the first line is the
file name with HTML's special characters replaced. -/
theorem C85_exact (h : ShowsTimes showE) {showD : Int → Text} (hd : ∀ d, Plain (showD d)) (filename : Text) (hf : '\n' ∉ filename) (i : Info.Info) :
    Spec.Report.info (infoText showE showD filename i) = some (infoReport showE showD (escape filename) i) := by
  obtain ⟨h1, h2, h3, h4, h5, h6⟩ := info_labels h hd i
  have hfil : (((infoHeader :: infoRule2 :: (i.apids.map (infoBody showE) ++ [[]])).drop 2).filter fun l => decide (l ≠ [])) =
      i.apids.map (infoBody showE) := by
    rw [List.drop_succ_cons, List.drop_succ_cons, List.drop_zero, List.filter_append]
    rw [List.filter_eq_self.2]
    · simp
    · intro l hl
      obtain ⟨a, _, rfl⟩ := List.mem_map.1 hl
      simpa using infoBody_ne a
  have hap := apids_read (i.apids.map (·.1)) 4
  obtain ⟨x1, e1, f1⟩ := Option.map_eq_some_iff.1 h1
  obtain ⟨x2, e2, f2⟩ := Option.map_eq_some_iff.1 h2
  obtain ⟨x3, e3, f3⟩ := Option.map_eq_some_iff.1 h3
  unfold Spec.Report.info
  rw [info_lines h hd filename hf i]
  simp only [h4, Option.bind_eq_bind, Option.bind_some, hap, info_table, hfil, e1, e2, e3, h5, h6, f1, f2, f3,
    mapM_map (infoBody showE) _ (fun a : U16 × Info.ISummary => (a.1.toNat, shown showE a.2)) _ (fun a _ => info_row h a)]
  simp [infoReport, shown, List.map_map, Function.comp_def]

/-- Full statement: the report shows the name of the file and its numbers. -/
def C85_full : Prop :=
  ∀ (showE : Epoch → Text) (showD : Int → Text), ShowsTimes showE → (∀ d, Plain (showD d)) → ∀ (filename : Text), '\n' ∉ filename → ∀ i : Info.Info,
    Spec.Report.info (infoText showE showD filename i) = some (infoReport showE showD filename i)

/-- It holds for file names without HTML's special characters. -/
theorem C85_partial (showE : Epoch → Text) (showD : Int → Text) (h : ShowsTimes showE) (hd : ∀ d, Plain (showD d)) (filename : Text)
    (hf : '\n' ∉ filename) (hs : ∀ c ∈ filename, Safe c) (i : Info.Info) :
    Spec.Report.info (infoText showE showD filename i) = some (infoReport showE showD filename i) := by
  have := C85_exact h hd filename hf i
  rwa [escape_id _ hs] at this

/-- An example of texts for times. -/
def exShow : Epoch → Text := fun _ => "2020-01-01T00:00:00.000000000 UTC".toList
theorem exShow_ok : ShowsTimes exShow := by
  intro e
  show Plain "2020-01-01T00:00:00.000000000 UTC".toList ∧ "2020-01-01T00:00:00.000000000 UTC".toList.length ≤ 33
  refine ⟨⟨⟨by decide +kernel, by decide +kernel, by decide +kernel⟩, by decide +kernel, ?_⟩, by decide +kernel⟩
  unfold Safe
  decide +kernel

def exShowD : Int → Text := fun _ => "2 s".toList
theorem exShowD_ok : ∀ d, Plain (exShowD d) := by
  intro d
  show Plain "2 s".toList
  refine ⟨⟨by decide +kernel, by decide +kernel, by decide +kernel⟩, by decide +kernel, ?_⟩
  unfold Safe
  decide +kernel

/-- The file `a&b.dat` is reported as `a&amp;b.dat`. -/
theorem C85_violated : ¬ C85_full := by
  intro h
  have h1 := h exShow exShowD exShow_ok exShowD_ok "a&b.dat".toList (by decide) ⟨.default, []⟩
  rw [C85_exact exShow_ok exShowD_ok _ (by decide)] at h1
  have := congrArg Spec.Report.InfoReport.filename (Option.some.inj h1)
  revert this
  decide +kernel

/-- A file of two APIDs, one without times. -/
example : Spec.Report.info (infoText exShow exShowD "pass.dat".toList ⟨⟨1234567, 3, some ⟨.utc, 5⟩, some ⟨.utc, 9⟩, 4⟩,
      [(7, ⟨1234566, 3, some ⟨.utc, 5⟩, some ⟨.utc, 9⟩, 4⟩), (1030, ⟨1, 0, none, none, 0⟩)]⟩) =
    some ⟨"pass.dat".toList, ⟨1234567, 3, some (exShow ⟨.utc, 5⟩), some (exShow ⟨.utc, 9⟩)⟩, "2 s".toList, [7, 1030],
      [(7, ⟨1234566, 3, some (exShow ⟨.utc, 5⟩), some (exShow ⟨.utc, 9⟩)⟩), (1030, ⟨1, 0, none, none⟩)]⟩ :=
  C85_partial exShow exShowD exShow_ok exShowD_ok _ (by decide) (by unfold Safe; decide +kernel) _

end Ccsds.Report
