import Verif.Props.Stdout
import Verif.Props.Report
import Verif.Spec.DiffText
/-!
# C91: the report of `ccsds diff` can be read back
-/
namespace Ccsds.Report
open Spec.Report (split trim words number labelled integer diffCell diffCount DiffReport)

theorem width_digits (w n : Nat) : width w (digits n) = List.replicate (w - (digits n).length) ' ' ++ digits n := rfl

theorem width_length {w n : Nat} (hw : 0 < w) (h : n < 10 ^ w) : (width w (digits n)).length = w := by
  have := (digits_length hw).2 h
  rw [width_digits, List.length_append, List.length_replicate]
  omega

theorem number_width (w n : Nat) : number (width w (digits n)) = some n := by
  have := number_digits (w - (digits n).length) 0 n
  rw [width_digits]
  simpa using this

theorem width_noNewline {t : Text} (w : Nat) (h : '\n' ∉ t) : '\n' ∉ width w t := by
  unfold width
  intro hm
  rcases List.mem_append.1 hm with hm | hm
  · have := (List.mem_replicate.1 hm).2
    revert this; decide
  · exact h hm

/-! ## The lines -/

/-- An APID as `diff` prints it, in four columns: decoded APIDs have 11 bits. -/
def KeyFits (k : Diff.Key) : Prop := k.apid.toNat < 10 ^ 4 ∧ k.seq.toNat < 10 ^ 6

theorem diffKey_eq (k : Diff.Key) : diffKey k = "[apid:".toList ++ (width 4 (digits k.apid.toNat) ++ (" seq:".toList ++ (width 6 (digits k.seq.toNat) ++
    (" crc:".toList ++ (width 10 (digits k.crc.toNat) ++ [']']))))) := by
  unfold diffKey
  simp only [List.append_assoc]

theorem diffKey_length (k : Diff.Key) (h : KeyFits k) : (diffKey k).length = 37 := by
  have h3 : k.crc.toNat < 10 ^ 10 := by have := k.crc.isLt; omega
  rw [diffKey_eq]
  simp only [List.length_append, width_length (by decide) h.1, width_length (by decide) h.2, width_length (by decide) h3]
  decide

theorem diffNoKey_length : diffNoKey.length = 37 := by decide

theorem cell_key (k : Diff.Key) (h : KeyFits k) : diffCell (diffKey k) = some (some k) := by
  have h3 : k.crc.toNat < 10 ^ 10 := by have := k.crc.isLt; omega
  have l1 := width_length (w := 4) (by decide) h.1
  have l2 := width_length (w := 6) (by decide) h.2
  have l3 := width_length (w := 10) (by decide) h3
  unfold diffCell
  rw [diffKey_eq, if_pos (by rw [List.isPrefixOf_iff_prefix]; exact List.prefix_append _ _)]
  have e1 : (List.drop 6 ("[apid:".toList ++ (width 4 (digits k.apid.toNat) ++ (" seq:".toList ++ (width 6 (digits k.seq.toNat) ++
    (" crc:".toList ++ (width 10 (digits k.crc.toNat) ++ [']']))))))).take 4 = width 4 (digits k.apid.toNat) := by
    rw [show (6 : Nat) = 6 + 0 from rfl, drop_col 0 _ _ (by decide), List.drop_zero, take_col _ _ l1]
  have e2 : (List.drop 15 ("[apid:".toList ++ (width 4 (digits k.apid.toNat) ++ (" seq:".toList ++ (width 6 (digits k.seq.toNat) ++
    (" crc:".toList ++ (width 10 (digits k.crc.toNat) ++ [']']))))))).take 6 = width 6 (digits k.seq.toNat) := by
    rw [show (15 : Nat) = 6 + 9 from rfl, drop_col 9 _ _ (by decide), show (9 : Nat) = 4 + 5 from rfl, drop_col 5 _ _ l1, show (5 : Nat) = 5 + 0 from rfl,
      drop_col 0 _ _ (by decide), List.drop_zero, take_col _ _ l2]
  have e3 : (List.drop 26 ("[apid:".toList ++ (width 4 (digits k.apid.toNat) ++ (" seq:".toList ++ (width 6 (digits k.seq.toNat) ++
    (" crc:".toList ++ (width 10 (digits k.crc.toNat) ++ [']']))))))).take 10 = width 10 (digits k.crc.toNat) := by
    rw [show (26 : Nat) = 6 + 20 from rfl, drop_col 20 _ _ (by decide), show (20 : Nat) = 4 + 16 from rfl, drop_col 16 _ _ l1, drop_col (w := 5) 11 _ _ (by decide), show (11 : Nat) = 6 + 5 from rfl, drop_col 5 _ _ l2, drop_col (w := 5) 0 _ _ (by decide), List.drop_zero,
      take_col _ _ l3]
  rw [e1, e2, e3, number_width, number_width, number_width]
  simp

theorem cell_noKey : diffCell diffNoKey = some none := by decide +kernel

/-- A line without its end. -/
def diffBody : Diff.Line → Text
  | .left k => diffKey k ++ ("  ".toList ++ diffNoKey)
  | .right k => diffNoKey ++ ("  ".toList ++ diffKey k)

def Diff.Line.key : Diff.Line → Diff.Key
  | .left k => k
  | .right k => k

theorem diffLine_eq (l : Diff.Line) : diffLine l = diffBody l ++ ['\n'] := by
  cases l <;> simp only [diffLine, diffBody, List.append_assoc]

theorem read_line (l : Diff.Line) (h : KeyFits (Diff.Line.key l)) : Spec.Report.diffLine (diffBody l) = some l := by
  unfold Spec.Report.diffLine
  cases l with
  | left k =>
    have hl := diffKey_length k h
    rw [diffBody, take_col _ _ hl, show (39 : Nat) = 37 + 2 from rfl, drop_col 2 _ _ hl, show (2 : Nat) = 2 + 0 from rfl, drop_col 0 _ _ (by decide), List.drop_zero,
      cell_key k h, cell_noKey]
  | right k =>
    rw [diffBody, take_col _ _ diffNoKey_length, show (39 : Nat) = 37 + 2 from rfl, drop_col 2 _ _ diffNoKey_length, show (2 : Nat) = 2 + 0 from rfl,
      drop_col 0 _ _ (by decide), List.drop_zero, show Diff.Line.key (.right k) = k from rfl] at *
    rw [cell_key k h, cell_noKey]

theorem diffKey_noNewline (k : Diff.Key) : '\n' ∉ diffKey k := by
  rw [diffKey_eq]
  refine noNewline_append (by decide) (noNewline_append (width_noNewline _ (digits_noNewline _)) (noNewline_append (by decide)
    (noNewline_append (width_noNewline _ (digits_noNewline _)) (noNewline_append (by decide) (noNewline_append (width_noNewline _ (digits_noNewline _)) (by decide))))))

theorem diffNoKey_noNewline : '\n' ∉ diffNoKey := by decide

theorem diffBody_noNewline (l : Diff.Line) : '\n' ∉ diffBody l := by
  cases l with
  | left k => exact noNewline_append (diffKey_noNewline k) (noNewline_append (by decide) diffNoKey_noNewline)
  | right k => exact noNewline_append diffNoKey_noNewline (noNewline_append (by decide) (diffKey_noNewline k))

theorem diffBody_ne (l : Diff.Line) : diffBody l ≠ [] := by
  cases l with
  | left k =>
    intro h
    rw [diffBody, diffKey_eq, List.append_assoc] at h
    exact absurd (List.append_eq_nil_iff.1 h).1 (by decide)
  | right k =>
    intro h
    exact absurd (List.append_eq_nil_iff.1 h).1 (by decide)

/-! ## The table -/

/-- C91: the difference is that of the counts, if they are below 2^31. -/
theorem C91_difference (b : Build) (l r : Nat) (hl : l < 2 ^ 31) (hr : r < 2 ^ 31) : difference b l r = .ret ((l : Int) - r) := by
  have e : ∀ n, n < 2 ^ 31 → (BitVec.ofNat 32 n).toInt = (n : Int) := by
    intro n hn
    have : (BitVec.ofNat 32 n).toNat = n := by rw [BitVec.toNat_ofNat]; exact Nat.mod_eq_of_lt (by omega)
    rw [BitVec.toInt_eq_toNat_of_lt (by rw [this]; omega), this]
  unfold difference
  dsimp only
  rw [e l hl, e r hr, if_pos (by omega)]

/-- C91: beyond that it may be wrong, even in sign. -/
theorem C91_difference_bound (b : Build) : difference b (2 ^ 31) 0 = .ret (-2 ^ 31) := by
  obtain ⟨b⟩ := b
  cases b <;> decide +kernel

/-- A row without its end. -/
def countBody (x : U16 × Nat × Nat) : Text :=
  width 4 (digits x.1.toNat) ++ ("  ".toList ++ (width 8 (digits x.2.1) ++ ("  ".toList ++ (width 8 (digits x.2.2) ++ ("  ".toList ++ width 8 (signed ((x.2.1 : Int) - x.2.2)))))))

theorem diffRows_eq (b : Build) (rows : List (U16 × Nat × Nat)) (h : ∀ x ∈ rows, x.2.1 < 2 ^ 31 ∧ x.2.2 < 2 ^ 31) :
    diffRows b rows = (rows.flatMap fun x => countBody x ++ ['\n'], true) := by
  induction rows with
  | nil => rfl
  | cons x rows ih =>
    obtain ⟨a, l, r⟩ := x
    have hx := h (a, l, r) (by simp)
    rw [diffRows, C91_difference b l r hx.1 hx.2]
    dsimp only
    rw [ih (fun x hx => h x (by simp [hx]))]
    simp only [List.flatMap_cons, countBody, List.append_assoc, List.singleton_append]

theorem signed_noNewline (i : Int) : '\n' ∉ signed i := by
  unfold signed
  split
  · intro h
    rcases List.mem_cons.1 h with h | h
    · revert h; decide
    · exact digits_noNewline _ h
  · exact digits_noNewline _

theorem countBody_noNewline (x : U16 × Nat × Nat) : '\n' ∉ countBody x := by
  unfold countBody
  refine noNewline_append (width_noNewline _ (digits_noNewline _)) (noNewline_append (by decide) (noNewline_append (width_noNewline _ (digits_noNewline _))
    (noNewline_append (by decide) (noNewline_append (width_noNewline _ (digits_noNewline _)) (noNewline_append (by decide) (width_noNewline _ (signed_noNewline _)))))))

theorem signed_noBlank (i : Int) : ' ' ∉ signed i := by
  unfold signed
  split
  · intro h
    rcases List.mem_cons.1 h with h | h
    · revert h; decide
    · exact digits_noBlank _ h
  · exact digits_noBlank _

theorem signed_ne (i : Int) : signed i ≠ [] := by
  unfold signed
  split
  · simp
  · exact Nat.toDigits_ne_nil

theorem countBody_ne (x : U16 × Nat × Nat) : countBody x ≠ [] := by
  intro h
  have := (List.append_eq_nil_iff.1 h).1
  rw [width_digits, List.append_eq_nil_iff] at this
  exact Nat.toDigits_ne_nil this.2

theorem trim_tight (t : Text) (h : Spec.Report.Tight t) : trim t = t := by
  have := trim_blanks 0 0 t h
  simpa using this

theorem integer_signed (i : Int) : integer (signed i) = some i := by
  unfold integer signed
  by_cases h : i < 0
  · rw [if_pos h]
    have ht : Spec.Report.Tight ('-' :: digits i.natAbs) := by
      refine ⟨by simp, by simp, ?_⟩
      rw [List.getLast?_cons]
      cases hg : (digits i.natAbs).getLast? with
      | none => simp
      | some c =>
        rw [Option.getD_some]
        rintro e
        injection e with e
        subst e
        exact (digits_tight i.natAbs).2.2 hg
    rw [trim_tight _ ht]
    show (number (digits i.natAbs)).map (fun n : Nat => -(n : Int)) = _
    rw [number_plain]
    simp only [Option.map_some, Option.some.injEq]
    omega
  · rw [if_neg h, trim_tight _ (digits_tight _)]
    have hd : ∀ ds, digits i.natAbs ≠ '-' :: ds := by
      intro ds e
      have : ('-' : Char).isDigit = true := digit_of (n := i.natAbs) (by rw [e]; simp)
      revert this; decide
    split
    · rename_i ds e
      exact absurd e (hd ds)
    · rw [number_plain]
      simp only [Option.map_some, Option.some.injEq]
      omega

/-- The row as it is read. -/
def countOf (x : U16 × Nat × Nat) : Nat × Nat × Nat × Int := (x.1.toNat, x.2.1, x.2.2, (x.2.1 : Int) - x.2.2)

theorem read_count (x : U16 × Nat × Nat) : diffCount (countBody x) = some (countOf x) := by
  have hw : words (countBody x) = [digits x.1.toNat, digits x.2.1, digits x.2.2, signed ((x.2.1 : Int) - x.2.2)] := by
    unfold countBody
    have hb : "  ".toList = ' ' :: List.replicate 1 ' ' := by decide
    rw [hb]
    simp only [width, List.append_assoc, List.cons_append]
    rw [words_blanks, words_cons _ _ (digits_noBlank _) Nat.toDigits_ne_nil, words_blanks, words_blanks, words_cons _ _ (digits_noBlank _) Nat.toDigits_ne_nil, words_blanks,
      words_blanks, words_cons _ _ (digits_noBlank _) Nat.toDigits_ne_nil, words_blanks, words_blanks, words_one _ (signed_noBlank _) (signed_ne _)]
  unfold diffCount
  rw [hw]
  dsimp only
  rw [number_plain, number_plain, number_plain, integer_signed]
  rfl

/-! ## The whole -/

/-- The lines of the table. -/
def tableLines : Option (List (U16 × Nat × Nat)) → List Text
  | none => []
  | some rows => "Apid counts:".toList :: "APID  Left      Right     Diff".toList :: "====  ========  ========  ========".toList :: (rows.map countBody ++ [[]])

/-- The lines of the headings. -/
def headLines (left right : Text) : List Text :=
  [[], "left:  ".toList ++ left, "right: ".toList ++ right, [], "Present in left, but not right         Present in right, but not left".toList, diffRule]

theorem split_lines (f : Diff.Line → Text) (ls : List Diff.Line) (h : ∀ a ∈ ls, '\n' ∉ f a) :
    split '\n' (ls.flatMap fun a => f a ++ ['\n']) = ls.map f ++ [[]] := split_rows f ls h

theorem split_head (left right : Text) (hl : '\n' ∉ left) (hr : '\n' ∉ right) (ls : List Diff.Line) :
    split '\n' (diffHead left right ++ ls.flatMap diffLine) = headLines left right ++ (ls.map diffBody ++ [[]]) := by
  have hp : "Present in left, but not right         Present in right, but not left\n".toList =
    "Present in left, but not right         Present in right, but not left".toList ++ ['\n'] := by decide +kernel
  have hrows : ls.flatMap diffLine = ls.flatMap fun l => diffBody l ++ ['\n'] := by rw [show diffLine = fun l => diffBody l ++ ['\n'] from funext diffLine_eq]
  have n1 : '\n' ∉ "left:  ".toList ++ left := noNewline_append (by decide +kernel) hl
  have n2 : '\n' ∉ "right: ".toList ++ right := noNewline_append (by decide +kernel) hr
  have n3 : '\n' ∉ "Present in left, but not right         Present in right, but not left".toList := by decide +kernel
  have n4 : '\n' ∉ diffRule := by decide +kernel
  unfold diffHead headLines
  rw [hp, hrows]
  generalize "Present in left, but not right         Present in right, but not left".toList = p at *
  generalize diffRule = rule at *
  generalize "left:  ".toList ++ left = l at *
  generalize "right: ".toList ++ right = r at *
  have e : ('\n' :: (l ++ '\n' :: (r ++ '\n' :: '\n' :: ((p ++ ['\n']) ++ (rule ++ ['\n']))))) ++ (ls.flatMap fun l => diffBody l ++ ['\n']) =
      [] ++ '\n' :: (l ++ '\n' :: (r ++ '\n' :: ([] ++ '\n' :: (p ++ '\n' :: (rule ++ '\n' :: (ls.flatMap fun l => diffBody l ++ ['\n'])))))) := by simp
  rw [e, split_append _ _ (by simp), split_append _ _ n1, split_append _ _ n2, split_append _ _ (by simp), split_append _ _ n3, split_append _ _ n4,
    split_lines _ _ (fun l _ => diffBody_noNewline l)]
  rfl

theorem split_prefix_rows (f : U16 × Nat × Nat → Text) (as : List (U16 × Nat × Nat)) (r : Text) (h : ∀ a ∈ as, '\n' ∉ f a) :
    split '\n' ((as.flatMap fun a => f a ++ ['\n']) ++ r) = as.map f ++ split '\n' r := by
  induction as with
  | nil => rfl
  | cons a as ih =>
    rw [List.flatMap_cons, List.append_assoc, List.append_assoc, List.singleton_append, split_append _ _ (h a (by simp)), ih (fun x hx => h x (by simp [hx]))]
    rfl

/-- The counts fit into an `i32`. -/
def CountsFit (t : Option (List (U16 × Nat × Nat))) : Prop := ∀ rows, t = some rows → ∀ x ∈ rows, x.2.1 < 2 ^ 31 ∧ x.2.2 < 2 ^ 31

theorem diff_lines (b : Build) (left right : Text) (hl : '\n' ∉ left) (hr : '\n' ∉ right) (t : Option (List (U16 × Nat × Nat))) (ht : CountsFit t) (ls : List Diff.Line) :
    (diffText b left right t ls).2 = true ∧
    split '\n' (diffText b left right t ls).1 = tableLines t ++ (headLines left right ++ (ls.map diffBody ++ [[]])) := by
  cases t with
  | none => exact ⟨rfl, split_head left right hl hr ls⟩
  | some rows =>
    have he := diffRows_eq b rows (ht rows rfl)
    have h1 : "Apid counts:\n".toList = "Apid counts:".toList ++ ['\n'] := by decide +kernel
    have h2 : "APID  Left      Right     Diff\n".toList = "APID  Left      Right     Diff".toList ++ ['\n'] := by decide +kernel
    have h3 : "====  ========  ========  ========\n".toList = "====  ========  ========  ========".toList ++ ['\n'] := by decide +kernel
    have n1 : '\n' ∉ "Apid counts:".toList := by decide +kernel
    have n2 : '\n' ∉ "APID  Left      Right     Diff".toList := by decide +kernel
    have n3 : '\n' ∉ "====  ========  ========  ========".toList := by decide +kernel
    unfold diffText diffTable tableLines
    dsimp only
    rw [he, h1, h2, h3]
    generalize "Apid counts:".toList = x at *
    generalize "APID  Left      Right     Diff".toList = y at *
    generalize "====  ========  ========  ========".toList = z at *
    simp only [if_true]
    refine ⟨trivial, ?_⟩
    rw [← split_head left right hl hr ls]
    generalize diffHead left right ++ ls.flatMap diffLine = rest
    have e : ((x ++ ['\n']) ++ ((y ++ ['\n']) ++ ((z ++ ['\n']) ++ ((rows.flatMap fun x => countBody x ++ ['\n']) ++ ['\n'])))) ++ rest =
      x ++ '\n' :: (y ++ '\n' :: (z ++ '\n' :: ((rows.flatMap fun x => countBody x ++ ['\n']) ++ ([] ++ '\n' :: rest)))) := by simp
    rw [e, split_append _ _ n1, split_append _ _ n2, split_append _ _ n3, split_prefix_rows _ _ _ (fun x _ => countBody_noNewline x), split_append _ _ (by simp)]
    simp

theorem skip_table {p : Text → Bool} (t : Option (List (U16 × Nat × Nat))) (rest : List Text)
    (h1 : p "Apid counts:".toList = true) (h2 : p "APID  Left      Right     Diff".toList = true) (h3 : p "====  ========  ========  ========".toList = true)
    (h4 : ∀ x, p (countBody x) = true) (h5 : p [] = true) : (tableLines t ++ rest).dropWhile p = rest.dropWhile p := by
  cases t with
  | none => rfl
  | some rows =>
    rw [tableLines, List.cons_append, List.cons_append, List.cons_append, List.dropWhile_cons_of_pos h1, List.dropWhile_cons_of_pos h2, List.dropWhile_cons_of_pos h3]
    induction rows with
    | nil => simp only [List.map_nil, List.nil_append, List.cons_append]; rw [List.dropWhile_cons_of_pos h5]
    | cons x rows ih => rw [List.map_cons, List.cons_append, List.cons_append, List.dropWhile_cons_of_pos (h4 x)]; exact ih

theorem countBody_head (x : U16 × Nat × Nat) : ∃ c r, countBody x = c :: r ∧ (c = ' ' ∨ c.isDigit = true) := by
  unfold countBody
  rw [width_digits]
  cases hk : 4 - (digits x.1.toNat).length with
  | zero =>
    cases hd : digits x.1.toNat with
    | nil => exact absurd hd Nat.toDigits_ne_nil
    | cons c ds => exact ⟨c, _, by simp; rfl, .inr (digit_of (n := x.1.toNat) (by rw [hd]; simp))⟩
  | succ k => exact ⟨' ', _, by simp [List.replicate_succ]; rfl, .inl rfl⟩

theorem prefix_count (label : Text) (x : U16 × Nat × Nat) (c : Char) (r : Text) (hl : label = c :: r) (h1 : c ≠ ' ') (h2 : c.isDigit = false) :
    label.isPrefixOf (countBody x) = false := by
  obtain ⟨d, s, e, h⟩ := countBody_head x
  rw [e, hl, List.isPrefixOf]
  have : c ≠ d := by
    rintro rfl
    rcases h with h | h
    · exact h1 h
    · rw [h] at h2; cases h2
  simp [this]

theorem labelled_table (label : String) (t : Option (List (U16 × Nat × Nat))) (rest : List Text)
    (h1 : label.toList.isPrefixOf "Apid counts:".toList = false) (h2 : label.toList.isPrefixOf "APID  Left      Right     Diff".toList = false)
    (h3 : label.toList.isPrefixOf "====  ========  ========  ========".toList = false)
    (h4 : ∀ x, label.toList.isPrefixOf (countBody x) = false) (h5 : label.toList.isPrefixOf [] = false) : labelled label (tableLines t ++ rest) = labelled label rest := by
  cases t with
  | none => rfl
  | some rows =>
    rw [tableLines, List.cons_append, List.cons_append, List.cons_append, labelled_skip _ _ _ h1, labelled_skip _ _ _ h2, labelled_skip _ _ _ h3]
    induction rows with
    | nil => simp only [List.map_nil, List.nil_append, List.cons_append]; rw [labelled_skip _ _ _ h5]
    | cons x rows ih => rw [List.map_cons, List.cons_append, List.cons_append, labelled_skip _ _ _ (h4 x)]; exact ih

/-- **C91.** From the text that `ccsds diff` prints, the names of the files, every row of the table of counts with its difference, and every packet with the side it stands on
are read back, in order. -/
theorem C91_readable (b : Build) (left right : Text) (hl : '\n' ∉ left) (hr : '\n' ∉ right) (t : Option (List (U16 × Nat × Nat))) (ht : CountsFit t) (ls : List Diff.Line)
    (hk : ∀ l ∈ ls, KeyFits (Diff.Line.key l)) :
    Spec.Report.diff (diffText b left right t ls).1 = some ⟨left, right, t.map (·.map countOf), ls⟩ := by
  obtain ⟨_, hs⟩ := diff_lines b left right hl hr t ht ls
  unfold Spec.Report.diff
  simp only [hs]
  -- the table
  have hc : Spec.Report.diffTable (tableLines t ++ (headLines left right ++ (ls.map diffBody ++ [[]]))) = some (t.map (·.map countOf)) := by
    unfold Spec.Report.diffTable
    cases t with
    | none =>
      rw [if_neg]
      · rfl
      · show ¬ (some [] = some "Apid counts:".toList)
        intro e
        injection e with e
        revert e; decide +kernel
    | some rows =>
      rw [if_pos (by rfl)]
      simp only [tableLines, List.cons_append, List.drop_succ_cons, List.drop_zero]
      have : (rows.map countBody ++ [[]] ++ (headLines left right ++ (ls.map diffBody ++ [[]]))).takeWhile (fun l => decide (l ≠ [])) = rows.map countBody := by
        rw [List.append_assoc, List.takeWhile_append_of_pos]
        · simp
        · intro l hl
          obtain ⟨x, _, rfl⟩ := List.mem_map.1 hl
          simpa using countBody_ne x
      rw [this, mapM_map countBody _ countOf _ (fun x _ => read_count x)]
      rfl
  rw [hc]
  have hrule : "=====================================".toList.isPrefixOf diffRule = true := by decide +kernel
  -- the lines
  have hd : ((tableLines t ++ (headLines left right ++ (ls.map diffBody ++ [[]]))).dropWhile
      fun l => !"=====================================".toList.isPrefixOf l).drop 1 = ls.map diffBody ++ [[]] := by
    have q1 : ("=====================================".toList.isPrefixOf "Apid counts:".toList) = false := by decide +kernel
    have q2 : ("=====================================".toList.isPrefixOf "APID  Left      Right     Diff".toList) = false := by decide +kernel
    have q3 : ("=====================================".toList.isPrefixOf "====  ========  ========  ========".toList) = false := by decide +kernel
    have q4 : ("=====================================".toList.isPrefixOf []) = false := by decide +kernel
    have q5 : ("=====================================".toList.isPrefixOf "Present in left, but not right         Present in right, but not left".toList) = false := by decide +kernel
    have q6 := prefix_false "=====================================" 1 "left:  ".toList left (by decide +kernel)
    have q7 := prefix_false "=====================================" 1 "right: ".toList right (by decide +kernel)
    have q8 : ∀ x, "=====================================".toList.isPrefixOf (countBody x) = false :=
      fun x => prefix_count _ x '=' ("====================================".toList) (by decide +kernel) (by decide) (by decide)
    rw [skip_table t _ (by simp only [q1]; rfl) (by simp only [q2]; rfl) (by simp only [q3]; rfl) (fun x => by simp only [q8]; rfl) (by simp only [q4]; rfl)]
    unfold headLines
    simp only [List.cons_append, List.nil_append]
    rw [List.dropWhile_cons_of_pos (by simp only [q4]; rfl), List.dropWhile_cons_of_pos (by simp only [q6]; rfl), List.dropWhile_cons_of_pos (by simp only [q7]; rfl),
      List.dropWhile_cons_of_pos (by simp only [q4]; rfl), List.dropWhile_cons_of_pos (by simp only [q5]; rfl), List.dropWhile_cons_of_neg (by simp only [hrule]; decide)]
    rfl
  rw [hd]
  have hf : (ls.map diffBody ++ [[]]).filter (fun l => decide (l ≠ [])) = ls.map diffBody := by
    rw [List.filter_append, List.filter_eq_self.2]
    · simp
    · intro l hl
      obtain ⟨x, _, rfl⟩ := List.mem_map.1 hl
      simpa using diffBody_ne x
  rw [hf, mapM_map diffBody _ id _ (fun l hl => read_line l (hk l hl)), List.map_id]
  -- the names
  have hleft : labelled "left:  " (tableLines t ++ (headLines left right ++ (ls.map diffBody ++ [[]]))) = some left := by
    rw [labelled_table "left:  " t _ (by decide +kernel) (by decide +kernel) (by decide +kernel)
      (fun x => prefix_count _ x 'l' ("eft:  ".toList) (by decide +kernel) (by decide) (by decide)) (by decide +kernel)]
    unfold headLines
    simp only [List.cons_append, List.nil_append]
    rw [labelled_skip _ _ _ (by decide +kernel), labelled_here]
  have hright : labelled "right: " (tableLines t ++ (headLines left right ++ (ls.map diffBody ++ [[]]))) = some right := by
    rw [labelled_table "right: " t _ (by decide +kernel) (by decide +kernel) (by decide +kernel)
      (fun x => prefix_count _ x 'r' ("ight: ".toList) (by decide +kernel) (by decide) (by decide)) (by decide +kernel)]
    unfold headLines
    simp only [List.cons_append, List.nil_append]
    rw [labelled_skip _ _ _ (by decide +kernel), labelled_skip _ _ _ (prefix_false "right: " 1 "left:  ".toList left (by decide +kernel)), labelled_here]
  rw [hleft, hright]
  rfl

/-! ## The command -/
section
open Cmd Spec
variable {Path : Type} {b : Build} {crc : List U8 → U32} {sched : Path → List U8 → Reader} {name : Path → Text} {verbose : Bool} {left right : Path} {fs : FS Path} {script : List WEv}
  {st : Status} {out : List U8}

theorem keyFits_of (crc : List U8 → U32) {p : Packet} (h : p.WellFormed) : KeyFits (packetKey crc p) := by
  obtain ⟨h1, h2⟩ := h
  have h7 := packetLen_ge p.data
  obtain ⟨x, e, _, _, _, ha, _, hs, _⟩ := C01_fields p.data (by omega)
  rw [h2] at e
  cases e
  have := field_lt p.data 18 14
  have := field_lt p.data 5 11
  unfold KeyFits packetKey
  dsimp only
  omega

theorem apidCount_le (ps : List Packet) (a : U16) : apidCount ps a ≤ ps.length := List.countP_le_length

/-- What there is to print, for two files with packets. -/
theorem parts_spec {f g : MFile} {ps qs : List Packet} (hfd : f.reader.Delivers f.content) (hgd : g.reader.Delivers g.content) (hp : Decodes f.reader ps)
    (hq : Decodes g.reader qs) (hn : ps ≠ [] ∨ qs ≠ []) {res : Diff.DResult} (h : Diff.Runs crc (some f) (some g) verbose res) :
    ∃ t ls, diffParts res = some (t, ls) ∧
      ((∀ l ∈ ls, KeyFits (Diff.Line.key l)) ∧
       ∃ omitted : List Diff.Line, omitted.length ≤ 1 ∧ ∀ k,
        (ls ++ omitted).count (.left k) = (ps.map (packetKey crc)).count k - (qs.map (packetKey crc)).count k ∧
        (ls ++ omitted).count (.right k) = (qs.map (packetKey crc)).count k - (ps.map (packetKey crc)).count k) ∧
      (verbose = false → t = none) ∧ (verbose = true → ∃ rows, t = some rows ∧ rows.Pairwise (fun x y => x.1 < y.1) ∧
        ∀ a x y, (a, x, y) ∈ rows ↔ x = apidCount ps a ∧ y = apidCount qs a ∧ x ≠ y) := by
  have e := (C54_total crc f g ps qs hp hq verbose _).1 h
  have hwp := decodes_wellFormed hfd hp
  have hwq := decodes_wellFormed hgd hq
  rw [compare_eq crc ps qs hwp hwq, if_neg (fun hz => hn.elim (fun k => k hz.1) (fun k => k hz.2))] at e
  obtain ⟨m, h1, h2⟩ := diffLines_spec _ (sortKeys (ps.map (packetKey crc))) (sortKeys (qs.map (packetKey crc))) (Nat.le_refl _) (sortKeys_asc _) (sortKeys_asc _)
  have hparts : diffParts res = some (if verbose then some (Diff.table (Diff.counts ps qs)) else none,
      diffLines (sortKeys (ps.map (packetKey crc))) (sortKeys (qs.map (packetKey crc)))) := by
    rw [e]
    split
    · rename_i hd; rw [hd]; rfl
    · rfl
  refine ⟨_, _, hparts, ⟨?_, m, h1, fun k => ?_⟩, ?_, ?_⟩
  · intro l hl
    have key : ∀ k, k ∈ ps.map (packetKey crc) ∨ k ∈ qs.map (packetKey crc) → KeyFits k := by
      rintro k (hk | hk)
      · obtain ⟨p, hp, rfl⟩ := List.mem_map.1 hk; exact keyFits_of crc (hwp p hp)
      · obtain ⟨p, hp, rfl⟩ := List.mem_map.1 hk; exact keyFits_of crc (hwq p hp)
    cases l with
    | left k =>
      have := (h2 k).1
      have hc : 0 < (diffLines (sortKeys (ps.map (packetKey crc))) (sortKeys (qs.map (packetKey crc))) ++ m).count (.left k) :=
        List.count_pos_iff.2 (List.mem_append_left _ hl)
      rw [this, (sortKeys_perm _).count_eq] at hc
      exact key k (.inl (List.count_pos_iff.1 (by omega)))
    | right k =>
      have := (h2 k).2
      have hc : 0 < (diffLines (sortKeys (ps.map (packetKey crc))) (sortKeys (qs.map (packetKey crc))) ++ m).count (.right k) :=
        List.count_pos_iff.2 (List.mem_append_left _ hl)
      rw [this, (sortKeys_perm (qs.map (packetKey crc))).count_eq] at hc
      exact key k (.inr (List.count_pos_iff.1 (by omega)))
  · rw [(h2 k).1, (h2 k).2, (sortKeys_perm _).count_eq, (sortKeys_perm _).count_eq]
    exact ⟨rfl, rfl⟩
  · rintro rfl; rfl
  · rintro rfl
    exact ⟨_, rfl, table_spec ps qs⟩

/-- **C91** for the command: what `ccsds diff` has printed when it ends without a panic, read back, tells for every packet how often one file has it more than the other (but for one
packet in all, C54), and with `--verbose` exactly the APIDs whose counts differ, with counts and difference; and the status is success exactly if no packet is listed. -/
theorem C91_command {f g : MFile} {ps qs : List Packet} (hf : fs.files sched left = some f) (hg : fs.files sched right = some g)
    (hfd : f.reader.Delivers f.content) (hgd : g.reader.Delivers g.content) (hp : Decodes f.reader ps) (hq : Decodes g.reader qs) (hn : ps ≠ [] ∨ qs ≠ [])
    (hl : '\n' ∉ name left) (hr : '\n' ∉ name right) (hlen : ps.length < 2 ^ 31 ∧ qs.length < 2 ^ 31)
    (h : DiffCmd b crc sched name verbose left right fs script st out) (hst : st ≠ .panic) :
    ∃ text counts lines, out = utf8 text ∧ Spec.Report.diff text = some ⟨name left, name right, counts, lines⟩ ∧
      (st = .ok ∨ st = .error) ∧ (st = .ok ↔ lines = []) ∧
      (∃ omitted : List Diff.Line, omitted.length ≤ 1 ∧ ∀ k,
        (lines ++ omitted).count (.left k) = (ps.map (packetKey crc)).count k - (qs.map (packetKey crc)).count k ∧
        (lines ++ omitted).count (.right k) = (qs.map (packetKey crc)).count k - (ps.map (packetKey crc)).count k) ∧
      (verbose = false → counts = none) ∧
      (verbose = true → ∃ rows, counts = some rows ∧ rows.Pairwise (fun x y => x.1 < y.1) ∧ (∀ row ∈ rows, row.1 < 2 ^ 16) ∧
        ∀ (a : U16) x y d, (a.toNat, x, y, d) ∈ rows ↔ x = apidCount ps a ∧ y = apidCount qs a ∧ x ≠ y ∧ d = (x : Int) - y) := by
  rcases C90_diff h hst with ⟨_, _, res, hres, hbad⟩ | ⟨res, t, ls, hres, hs, _, ho⟩
  · rw [hf, hg] at hres
    obtain ⟨t, ls, hpt, _⟩ := parts_spec hfd hgd hp hq hn hres
    rcases hbad with rfl | rfl <;> cases hpt
  · rw [hf, hg] at hres
    obtain ⟨t', ls', hpt, ⟨hk, hom⟩, ht1, ht2⟩ := parts_spec hfd hgd hp hq hn hres
    have hpt' : diffParts res = some (t, ls) := by
      rcases hs with ⟨_, rfl, rfl⟩ | ⟨_, rfl, _⟩ <;> rfl
    rw [hpt] at hpt'
    injection hpt' with hpt'
    injection hpt' with e1 e2
    subst e1 e2
    have hfit : CountsFit t' := by
      intro rows hrows x hx
      cases hv : verbose with
      | false => rw [ht1 hv] at hrows; cases hrows
      | true =>
        obtain ⟨rows', e, _, hr'⟩ := ht2 hv
        rw [e] at hrows
        injection hrows with hrows
        subst hrows
        obtain ⟨a, u, v⟩ := x
        obtain ⟨rfl, rfl, _⟩ := (hr' a u v).1 hx
        have := apidCount_le ps a
        have := apidCount_le qs a
        dsimp only
        omega
    refine ⟨_, _, _, ho, C91_readable b _ _ hl hr t' hfit ls' hk, ?_, ?_, hom, ?_, ?_⟩
    · rcases hs with ⟨h, _⟩ | ⟨h, _⟩
      · exact .inl h
      · exact .inr h
    · rcases hs with ⟨h, _, h2⟩ | ⟨h, _, h2⟩
      · exact ⟨fun _ => h2, fun _ => h⟩
      · exact ⟨fun h3 => by (rw [h] at h3; cases h3), fun h3 => absurd h3 h2⟩
    · intro hv; rw [ht1 hv]; rfl
    · intro hv
      obtain ⟨rows, e, hpw, hr'⟩ := ht2 hv
      refine ⟨_, by rw [e]; rfl, ?_, ?_, ?_⟩
      · rw [List.pairwise_map]
        exact hpw.imp fun h => h
      · intro row hrow
        obtain ⟨x, _, rfl⟩ := List.mem_map.1 hrow
        exact x.1.isLt
      · intro a x y d
        rw [List.mem_map]
        constructor
        · rintro ⟨⟨a', x', y'⟩, hm, he⟩
          simp only [countOf, Prod.mk.injEq] at he
          obtain ⟨ea, rfl, rfl, rfl⟩ := he
          have := BitVec.eq_of_toNat_eq ea
          subst this
          obtain ⟨q1, q2, q3⟩ := (hr' _ _ _).1 hm
          exact ⟨q1, q2, q3, rfl⟩
        · rintro ⟨q1, q2, q3, rfl⟩
          exact ⟨(a, x, y), (hr' _ _ _).2 ⟨q1, q2, q3⟩, rfl⟩
/-- C91: and on an output that takes everything it is given, `ccsds diff` does end so. -/
theorem C91_no_panic {f g : MFile} {ps qs : List Packet} (hf : fs.files sched left = some f) (hg : fs.files sched right = some g)
    (hfd : f.reader.Delivers f.content) (hgd : g.reader.Delivers g.content) (hp : Decodes f.reader ps) (hq : Decodes g.reader qs) (hn : ps ≠ [] ∨ qs ≠ [])
    (hlen : ps.length < 2 ^ 31 ∧ qs.length < 2 ^ 31) (hh : Healthy script) :
    (∃ st out, DiffCmd b crc sched name verbose left right fs script st out) ∧ ∀ st out, DiffCmd b crc sched name verbose left right fs script st out → st ≠ .panic := by
  have fits : ∀ {res : Diff.DResult} {t ls}, Diff.Runs crc (some f) (some g) verbose res → diffParts res = some (t, ls) → (diffText b (name left) (name right) t ls).2 = true := by
    intro res t ls hres hpt
    obtain ⟨t', ls', hpt', _, ht1, ht2⟩ := parts_spec hfd hgd hp hq hn hres
    rw [hpt] at hpt'
    injection hpt' with hpt'
    injection hpt' with e1 e2
    subst e1 e2
    cases hv : verbose with
    | false => rw [ht1 hv]; rfl
    | true =>
      obtain ⟨rows, e, _, hr'⟩ := ht2 hv
      subst e
      have he := diffRows_eq b rows (by
        intro x hx
        obtain ⟨a, u, v⟩ := x
        obtain ⟨rfl, rfl, _⟩ := (hr' a u v).1 hx
        have := apidCount_le ps a
        have := apidCount_le qs a
        dsimp only
        omega)
      unfold diffText diffTable
      dsimp only
      rw [he]
      rfl
  constructor
  · have hres := (C54_total crc f g ps qs hp hq verbose _).2 rfl
    obtain ⟨t, ls, hpt, _⟩ := parts_spec hfd hgd hp hq hn hres
    have hd := fits hres hpt
    rw [← hf, ← hg] at hres
    exact ⟨_, _, C90_diff_total hh hres hpt hd⟩
  · intro st out h
    cases h with
    | panicked hres =>
      rw [hf, hg] at hres
      obtain ⟨t, ls, hpt, _⟩ := parts_spec hfd hgd hp hq hn hres
      cases hpt
    | refused => simp
    | @compared res t ls pieces hres hpt hpi =>
      rw [hf, hg] at hres
      rw [(C90_healthy script pieces hh).1, fits hres hpt]
      by_cases e : ls = [] <;> simp [e]

/-- Concrete: `C91_command` and `C91_no_panic` for the files of `DiffEx`, in either order, with the table. -/
example (b : Build) (script : List WEv) (hh : Healthy script) : ∃ st text counts lines,
    DiffCmd b DiffEx.crc0 (fun _ : Nat => Reader.ofBytes) (fun _ => ['x']) true 1 0 (fun p => if p = 0 then some FilterEx.stream else some FilterEx.early) script st (utf8 text) ∧
    Spec.Report.diff text = some ⟨['x'], ['x'], some counts, lines⟩ ∧ (2, 0, 1, (-1 : Int)) ∈ counts ∧ ∀ x y d, (1, x, y, d) ∉ counts := by
  obtain ⟨⟨st, out, h⟩, hn⟩ := C91_no_panic (b := b) (crc := DiffEx.crc0) (sched := fun _ : Nat => Reader.ofBytes) (name := fun _ => ['x']) (verbose := true) (left := 1) (right := 0)
    (fs := fun p => if p = 0 then some FilterEx.stream else some FilterEx.early) (script := script) (f := DiffEx.one) (g := DiffEx.both) rfl rfl
    DiffEx.delivers1 FilterEx.delivers DiffEx.decodes1 FilterEx.decodes (.inl (by simp)) ⟨by decide, by decide⟩ hh
  obtain ⟨text, counts, lines, ho, hr, _, _, _, _, hv⟩ := C91_command (f := DiffEx.one) (g := DiffEx.both) rfl rfl
    DiffEx.delivers1 FilterEx.delivers DiffEx.decodes1 FilterEx.decodes (.inl (by simp)) (by decide) (by decide) ⟨by decide, by decide⟩ h (hn _ _ h)
  obtain ⟨rows, rfl, _, _, hm⟩ := hv rfl
  refine ⟨st, text, rows, lines, ho ▸ h, hr, (hm 2#16 0 1 (-1)).2 (by decide +kernel), fun x y d hx => ?_⟩
  obtain ⟨e1, e2, ne, _⟩ := (hm 1#16 x y d).1 hx
  have : apidCount [FilterEx.earlyPkt 0] 1#16 = apidCount [FilterEx.earlyPkt 0, FilterEx.latePkt 14] 1#16 := by decide +kernel
  exact ne (e1.trans (this.trans e2.symm))
end

end Ccsds.Report
