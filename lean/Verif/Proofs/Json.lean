import Verif.Spec.Json
/-! A reader of JSON reads back what the printer writes. -/
namespace Ccsds.Report
open Spec.Json (isWs ws hex unescape string number value elements members parse)

theorem ws_cons {c : Char} {t : Text} (h : isWs c = false) : ws (c :: t) = c :: t := by simp [ws, h]
theorem ws_newline (d : Nat) (t : Text) : ws (newline d ++ t) = ws t := by
  have : ∀ k, ws (List.replicate k ' ' ++ t) = ws t := by
    intro k
    induction k with
    | zero => rfl
    | succ k ih => rw [List.replicate_succ, List.cons_append, ws, List.dropWhile_cons_of_pos (by decide)]; exact ih
  rw [newline, List.cons_append, ws, List.dropWhile_cons_of_pos (by decide)]
  exact this _
theorem ws_space (t : Text) : ws (' ' :: t) = ws t := by rw [ws, List.dropWhile_cons_of_pos (by decide)]; rfl

theorem value_ws {t t' : Text} (h : ws t = ws t') (n : Nat) : value n t = value n t' := by
  cases n with
  | zero => rfl
  | succ n => simp only [value, h]
theorem elements_ws {t t' : Text} (h : ws t = ws t') (n : Nat) : elements n t = elements n t' := by
  cases n with
  | zero => rfl
  | succ n => simp only [elements, value_ws h]
theorem members_ws {t t' : Text} (h : ws t = ws t') (n : Nat) : members n t = members n t' := by
  cases n with
  | zero => rfl
  | succ n => simp only [members, h]

/-! ## Strings -/

theorem string_plain (c : Char) (r : Text) (h1 : c ≠ '"') (h2 : c ≠ '\\') (h3 : ¬ c.toNat < 32) : string (c :: r) = (string r).map fun x => (c :: x.1, x.2) := by
  rw [string]
  · rw [if_neg h3]
    cases string r with
    | none => rfl
    | some x => rfl
  · exact h1
  · intro a b c d r e; exact absurd e h2
  · intro a b e; exact absurd e h2

theorem string_esc (c x : Char) (r : Text) (h : unescape c = some x) : string ('\\' :: c :: r) = (string r).map fun y => (x :: y.1, y.2) := by
  rw [string]
  · rw [h]
    cases string r with
    | none => rfl
    | some x => rfl
  · rintro a b c d r rfl
    rw [show unescape 'u' = none from by decide] at h
    cases h

theorem string_hex (a b : Char) (x y : Nat) (r : Text) (ha : hex a = some x) (hb : hex b = some y) :
    string ('\\' :: 'u' :: '0' :: '0' :: a :: b :: r) = (string r).map fun z => (Char.ofNat (16 * x + y) :: z.1, z.2) := by
  rw [string, ha, hb, show hex '0' = some 0 from by decide]
  cases string r with
  | none => rfl
  | some z => simp

theorem hex_digit : ∀ n : Fin 16, hex (hexDigit n) = some n.val := by decide

theorem string_quoteChar (c : Char) (r : Text) : string (quoteChar c ++ r) = (string r).map fun x => (c :: x.1, x.2) := by
  unfold quoteChar
  split
  · rename_i h; subst h; exact string_esc _ _ _ (by decide)
  split
  · rename_i h; subst h; exact string_esc _ _ _ (by decide)
  split
  · rename_i h; subst h; exact string_esc _ _ _ (by decide)
  split
  · rename_i h; subst h; exact string_esc _ _ _ (by decide)
  split
  · rename_i h; subst h; exact string_esc _ _ _ (by decide)
  split
  · rename_i h
    have : c = Char.ofNat 8 := by rw [← h, Char.ofNat_toNat]
    subst this; exact string_esc _ _ _ (by decide)
  split
  · rename_i h
    have : c = Char.ofNat 12 := by rw [← h, Char.ofNat_toNat]
    subst this; exact string_esc _ _ _ (by decide)
  split
  · rename_i h
    have h1 := hex_digit ⟨c.toNat / 16, by omega⟩
    have h2 := hex_digit ⟨c.toNat % 16, by omega⟩
    have := string_hex _ _ _ _ r h1 h2
    simp only at this
    rw [show 16 * (c.toNat / 16) + c.toNat % 16 = c.toNat from by omega, Char.ofNat_toNat] at this
    exact this
  · rename_i h1 h2 _ _ _ _ _ h3
    exact string_plain c r h1 h2 h3

theorem string_body (t r : Text) : string (t.flatMap quoteChar ++ '"' :: r) = some (t, r) := by
  induction t with
  | nil => rw [List.flatMap_nil, List.nil_append, string]
  | cons c t ih => rw [List.flatMap_cons, List.append_assoc, string_quoteChar, ih]; rfl

/-! ## Numbers -/

theorem digits_digit {n : Nat} {c : Char} (h : c ∈ digits n) : c.isDigit = true := Nat.isDigit_of_mem_toDigits (by decide) (by decide) h

/-- What can follow a number. -/
def Stops (r : Text) : Prop := ∀ c, r.head? = some c → c.isDigit = false

theorem digits_take (n : Nat) (r : Text) (hr : Stops r) : (digits n ++ r).takeWhile Char.isDigit = digits n ∧ (digits n ++ r).dropWhile Char.isDigit = r := by
  have h1 : ∀ l : Text, (∀ c ∈ l, c.isDigit = true) → (l ++ r).takeWhile Char.isDigit = l ∧ (l ++ r).dropWhile Char.isDigit = r := by
    intro l
    induction l with
    | nil =>
      intro _
      cases r with
      | nil => exact ⟨rfl, rfl⟩
      | cons c r => have := hr c rfl; simp [this]
    | cons c l ih =>
      intro h
      have hc := h c (by simp)
      obtain ⟨a, b⟩ := ih (fun x hx => h x (by simp [hx]))
      simp [hc, a, b]
  exact h1 _ (fun c hc => digits_digit hc)

theorem digits_head (n : Nat) : (digits n).head? = some '0' → (digits n).length = 1 := by
  have : ∀ m, 0 < m → (Nat.toDigits 10 m).head? ≠ some '0' := by
    intro m
    induction m using Nat.strongRecOn with
    | _ m ih =>
      intro hm h
      rw [Nat.toDigits_eq_if (by decide)] at h
      split at h
      · simp at h; omega
      · rename_i hge
        refine ih (m / 10) (by omega) (by omega) ?_
        rw [List.head?_append] at h
        cases hd : (Nat.toDigits 10 (m / 10)).head? with
        | none => rw [List.head?_eq_none_iff] at hd; exact absurd hd Nat.toDigits_ne_nil
        | some c => rw [hd] at h; simpa using h
  intro h
  by_cases h0 : n = 0
  · subst h0; rfl
  · exact absurd h (this n (by omega))

theorem number_digits_rest (n : Nat) (r : Text) (hr : Stops r) : number (digits n ++ r) = some (n, r) := by
  obtain ⟨h1, h2⟩ := digits_take n r hr
  unfold number
  rw [h1, h2]
  simp only
  rw [if_neg]
  · exact congrArg (fun x => some (x, r)) Nat.ofDigitChars_ten_toDigits
  · rintro (h | ⟨h, h'⟩)
    · exact Nat.toDigits_ne_nil h
    · exact h' (digits_head n h)

/-! ## Values -/

mutual
/-- How much `value` has to be given. -/
def size : Json → Nat
  | .null => 1
  | .num _ => 1
  | .str _ => 1
  | .arr es => 1 + sizeE es
  | .obj fs => 1 + sizeF fs
def sizeE : Elems → Nat
  | .nil => 0
  | .cons v es => 1 + size v + sizeE es
def sizeF : Fields → Nat
  | .nil => 0
  | .cons _ v fs => 1 + size v + sizeF fs
end

theorem pretty_stop_elems (d d' : Nat) (es : Elems) (r : Text) : Stops (prettyElems d es ++ (newline d' ++ ']' :: r)) := by
  intro c hc
  cases es with
  | nil => simp [prettyElems, newline] at hc; subst hc; decide
  | cons v es => simp [prettyElems] at hc; subst hc; decide

theorem pretty_stop_fields (d d' : Nat) (fs : Fields) (r : Text) : Stops (prettyFields d fs ++ (newline d' ++ '}' :: r)) := by
  intro c hc
  cases fs with
  | nil => simp [prettyFields, newline] at hc; subst hc; decide
  | cons k v fs => simp [prettyFields] at hc; subst hc; decide

theorem digit_ws {c : Char} (hc : c.isDigit = true) : isWs c = false := by
  cases hw : isWs c with
  | false => rfl
  | true => simp only [isWs, Bool.or_eq_true, decide_eq_true_eq] at hw; rcases hw with ((rfl | rfl) | rfl) | rfl <;> revert hc <;> decide

theorem pretty_head (v : Json) (d : Nat) (r : Text) : (ws (pretty d v ++ r)).head? ≠ some ']' := by
  match v with
  | .null => rw [pretty, show "null".toList = ['n', 'u', 'l', 'l'] from rfl, List.cons_append, ws_cons (by decide)]; simp
  | .num k =>
    rw [pretty]
    cases hd : digits k with
    | nil => exact absurd hd Nat.toDigits_ne_nil
    | cons c l =>
      have hc : c.isDigit = true := digits_digit (n := k) (by rw [hd]; simp)
      rw [List.cons_append, ws_cons (digit_ws hc)]
      intro h
      simp at h
      subst h
      revert hc
      decide
  | .str t => rw [pretty, quote, List.cons_append, List.cons_append, ws_cons (by decide)]; simp
  | .arr .nil => rw [pretty, List.cons_append, ws_cons (by decide)]; simp
  | .arr (.cons v es) => rw [pretty]; simp only [List.cons_append]; rw [ws_cons (by decide)]; simp
  | .obj .nil => rw [pretty, List.cons_append, ws_cons (by decide)]; simp
  | .obj (.cons k v fs) => rw [pretty]; simp only [List.cons_append]; rw [ws_cons (by decide)]; simp

mutual
theorem value_pretty (v : Json) (d n : Nat) (r : Text) (hn : size v ≤ n) (hr : Stops r) : value n (pretty d v ++ r) = some (v, r) := by
  cases n with
  | zero => cases v <;> simp [size] at hn
  | succ n =>
  match v with
  | .null => rw [value, pretty]; simp only [show "null".toList = ['n', 'u', 'l', 'l'] from rfl, List.cons_append, List.nil_append]; rw [ws_cons (by decide)]; rfl
  | .num k =>
    rw [value, pretty]
    cases hd : digits k with
    | nil => exact absurd hd Nat.toDigits_ne_nil
    | cons c l =>
      have hc : c.isDigit = true := digits_digit (n := k) (by rw [hd]; simp)
      rw [List.cons_append, ws_cons (digit_ws hc)]
      have hne : ∀ x : Char, x.isDigit = false → c ≠ x := by rintro x hx rfl; rw [hc] at hx; cases hx
      simp only
      rw [if_neg (hne _ (by decide)), if_neg (hne _ (by decide)), if_neg (hne _ (by decide)), if_neg (hne _ (by decide)), ← List.cons_append, ← hd, number_digits_rest k r hr]
      rfl
  | .str t =>
    rw [value, pretty, quote]
    simp only [List.cons_append, List.append_assoc, List.nil_append]
    rw [ws_cons (by decide)]
    simp only [if_true]
    rw [string_body]
    rfl
  | .arr .nil => rw [value, pretty]; simp only [List.cons_append, List.nil_append]; rw [ws_cons (by decide)]; rfl
  | .arr (.cons v es) =>
    rw [value, pretty]
    simp only [List.cons_append, List.append_assoc, List.nil_append]
    rw [ws_cons (by decide)]
    simp only [show ('[' : Char) ≠ '"' from by decide, if_false, if_true]
    rw [elements_ws (ws_newline (d + 1) _), elements_pretty v es (d + 1) d n r (by simp [size, sizeE] at hn; omega), if_neg]
    · rfl
    · rw [ws_newline]
      exact pretty_head v (d + 1) _
  | .obj .nil => rw [value, pretty]; simp only [List.cons_append, List.nil_append]; rw [ws_cons (by decide)]; rfl
  | .obj (.cons k v fs) =>
    rw [value, pretty]
    simp only [List.cons_append, List.append_assoc, List.nil_append]
    rw [ws_cons (by decide)]
    simp only [show ('{' : Char) ≠ '"' from by decide, show ('{' : Char) ≠ '[' from by decide, if_false, if_true]
    rw [members_ws (ws_newline (d + 1) _), members_pretty k v fs (d + 1) d n r (by simp [size, sizeF] at hn; omega), if_neg]
    · rfl
    · rw [ws_newline, quote, List.cons_append, List.cons_append, ws_cons (by decide)]
      simp
termination_by n
theorem elements_pretty (v : Json) (es : Elems) (d d' n : Nat) (r : Text) (hn : 1 + size v + sizeE es ≤ n) :
    elements n (pretty d v ++ (prettyElems d es ++ (newline d' ++ ']' :: r))) = some (.cons v es, r) := by
  cases n with
  | zero => omega
  | succ n =>
  rw [elements, value_pretty v d n _ (by omega) (pretty_stop_elems d d' es r)]
  match es with
  | .nil =>
    simp only [prettyElems, List.nil_append, Option.bind_eq_bind, Option.bind_some]
    rw [ws_newline, ws_cons (by decide)]
    rfl
  | .cons w es =>
    simp only [prettyElems, List.cons_append, List.append_assoc, Option.bind_eq_bind, Option.bind_some]
    rw [ws_cons (by decide)]
    simp only [show (',' : Char) ≠ ']' from by decide, if_false, if_true]
    rw [elements_ws (ws_newline d _), elements_pretty w es d d' n r (by simp [sizeE] at hn; omega)]
    rfl
termination_by n
theorem members_pretty (k : Text) (v : Json) (fs : Fields) (d d' n : Nat) (r : Text) (hn : 1 + size v + sizeF fs ≤ n) :
    members n (quote k ++ (": ".toList ++ (pretty d v ++ (prettyFields d fs ++ (newline d' ++ '}' :: r))))) = some (.cons k v fs, r) := by
  cases n with
  | zero => omega
  | succ n =>
  rw [members, quote, List.cons_append, List.cons_append, ws_cons (by decide)]
  simp only [ne_eq, List.append_assoc, List.cons_append, not_true_eq_false, if_false, List.nil_append]
  rw [string_body]
  simp only [show ": ".toList = [':', ' '] from rfl, List.cons_append, List.nil_append, Option.bind_eq_bind, Option.bind_some]
  rw [ws_cons (by decide)]
  simp only [not_true_eq_false, if_false]
  rw [value_ws (ws_space _), value_pretty v d n _ (by omega) (pretty_stop_fields d d' fs r)]
  match fs with
  | .nil =>
    simp only [prettyFields, List.nil_append, Option.bind_some]
    rw [ws_newline, ws_cons (by decide)]
    rfl
  | .cons k' w fs =>
    simp only [prettyFields, List.cons_append, List.append_assoc, Option.bind_some]
    rw [ws_cons (by decide)]
    simp only [show (',' : Char) ≠ '}' from by decide, if_false, if_true]
    rw [members_ws (ws_newline d _), members_pretty k' w fs d d' n r (by simp [sizeF] at hn; omega)]
    rfl
termination_by n
end

/-! ## Length -/

theorem newline_pos (d : Nat) : 0 < (newline d).length := by simp [newline]

mutual
theorem size_le (v : Json) (d : Nat) : size v ≤ (pretty d v).length := by
  match v with
  | .null => simp [size, pretty]
  | .num k =>
    have : (digits k).length ≠ 0 := fun h => Nat.toDigits_ne_nil (List.length_eq_zero_iff.1 h)
    simp only [size, pretty]; omega
  | .str t => simp [size, pretty, quote]
  | .arr .nil => simp [size, sizeE, pretty]
  | .arr (.cons v es) =>
    have h1 := size_le v (d + 1)
    have h2 := sizeE_le es (d + 1)
    simp [size, sizeE, pretty, newline]; omega
  | .obj .nil => simp [size, sizeF, pretty]
  | .obj (.cons k v fs) =>
    have h1 := size_le v (d + 1)
    have h2 := sizeF_le fs (d + 1)
    simp [size, sizeF, pretty, newline, quote]; omega
theorem sizeE_le (es : Elems) (d : Nat) : sizeE es ≤ (prettyElems d es).length := by
  match es with
  | .nil => simp [sizeE]
  | .cons v es =>
    have h1 := size_le v d
    have h2 := sizeE_le es d
    simp [sizeE, prettyElems, newline]; omega
theorem sizeF_le (fs : Fields) (d : Nat) : sizeF fs ≤ (prettyFields d fs).length := by
  match fs with
  | .nil => simp [sizeF]
  | .cons k v fs =>
    have h1 := size_le v d
    have h2 := sizeF_le fs d
    simp [sizeF, prettyFields, newline, quote]; omega
end

/-- **What the printer writes is read back.** -/
theorem parse_pretty (v : Json) : parse (pretty 0 v) = some v := by
  have h := value_pretty v 0 ((pretty 0 v).length + 1) [] (Nat.le_succ_of_le (size_le v 0)) (by intro c hc; cases hc)
  rw [List.append_nil] at h
  rw [parse, h]
  rfl

/-! ## ASCII -/

/-- Only ASCII characters. -/
def Ascii (t : Text) : Prop := ∀ c ∈ t, c.toNat < 128

theorem ascii_append {a b : Text} (ha : Ascii a) (hb : Ascii b) : Ascii (a ++ b) := by
  intro c hc
  rcases List.mem_append.1 hc with h | h
  · exact ha c h
  · exact hb c h
theorem ascii_cons {x : Char} {b : Text} (ha : x.toNat < 128) (hb : Ascii b) : Ascii (x :: b) := by
  intro c hc
  rcases List.mem_cons.1 hc with rfl | h
  · exact ha
  · exact hb c h
theorem ascii_nil : Ascii [] := by intro c hc; cases hc
theorem ascii_newline (d : Nat) : Ascii (newline d) := by
  refine ascii_cons (by decide) ?_
  intro c hc
  rw [(List.mem_replicate.1 hc).2]; decide
theorem ascii_quoteChar (c : Char) (h : c.toNat < 128) : Ascii (quoteChar c) := by
  have hd : ∀ n : Fin 16, (hexDigit n).toNat < 128 := by decide
  unfold quoteChar
  repeat' split
  all_goals try (intro x hx; revert x; decide)
  · rename_i hlt
    have h1 := hd ⟨c.toNat / 16, by omega⟩
    have h2 := hd ⟨c.toNat % 16, by omega⟩
    exact ascii_cons (by decide) (ascii_cons (by decide) (ascii_cons (by decide) (ascii_cons (by decide) (ascii_cons h1 (ascii_cons h2 ascii_nil)))))
  · exact ascii_cons h ascii_nil
theorem ascii_quote (t : Text) (h : Ascii t) : Ascii (quote t) := by
  refine ascii_cons (by decide) (ascii_append ?_ (ascii_cons (by decide) ascii_nil))
  intro c hc
  obtain ⟨x, hx, hc⟩ := List.mem_flatMap.1 hc
  exact ascii_quoteChar x (h x hx) c hc
theorem ascii_digits (n : Nat) : Ascii (digits n) := by
  intro c hc
  have := digits_digit hc
  simp only [Char.isDigit, Bool.and_eq_true, decide_eq_true_eq] at this
  have h2 := UInt32.le_iff_toNat_le.1 this.2
  have : c.toNat ≤ 57 := h2
  omega

mutual
/-- All texts in it are of ASCII characters. -/
def AsciiJ : Json → Prop
  | .null => True
  | .num _ => True
  | .str t => Ascii t
  | .arr es => AsciiE es
  | .obj fs => AsciiF fs
def AsciiE : Elems → Prop
  | .nil => True
  | .cons v es => AsciiJ v ∧ AsciiE es
def AsciiF : Fields → Prop
  | .nil => True
  | .cons k v fs => Ascii k ∧ AsciiJ v ∧ AsciiF fs
end

mutual
theorem ascii_pretty (v : Json) (d : Nat) (h : AsciiJ v) : Ascii (pretty d v) := by
  match v with
  | .null => unfold Ascii; rw [pretty]; decide
  | .num k => rw [pretty]; exact ascii_digits k
  | .str t => rw [pretty]; exact ascii_quote t (by simpa [AsciiJ] using h)
  | .arr .nil => unfold Ascii; rw [pretty]; decide
  | .arr (.cons v es) =>
    simp only [AsciiJ, AsciiE] at h
    rw [pretty]
    exact ascii_append (ascii_append (ascii_append (ascii_append (ascii_cons (by decide) (ascii_newline _)) (ascii_pretty v _ h.1)) (ascii_prettyE es _ h.2)) (ascii_newline _))
      (ascii_cons (by decide) ascii_nil)
  | .obj .nil => unfold Ascii; rw [pretty]; decide
  | .obj (.cons k v fs) =>
    simp only [AsciiJ, AsciiF] at h
    rw [pretty]
    exact ascii_append (ascii_append (ascii_append (ascii_append (ascii_append (ascii_append (ascii_cons (by decide) (ascii_newline _)) (ascii_quote k h.1))
      (by unfold Ascii; decide)) (ascii_pretty v _ h.2.1)) (ascii_prettyF fs _ h.2.2)) (ascii_newline _)) (ascii_cons (by decide) ascii_nil)
theorem ascii_prettyE (es : Elems) (d : Nat) (h : AsciiE es) : Ascii (prettyElems d es) := by
  match es with
  | .nil => rw [prettyElems]; exact ascii_nil
  | .cons v es =>
    simp only [AsciiE] at h
    rw [prettyElems]
    exact ascii_append (ascii_append (ascii_cons (by decide) (ascii_newline _)) (ascii_pretty v _ h.1)) (ascii_prettyE es _ h.2)
theorem ascii_prettyF (fs : Fields) (d : Nat) (h : AsciiF fs) : Ascii (prettyFields d fs) := by
  match fs with
  | .nil => rw [prettyFields]; exact ascii_nil
  | .cons k v fs =>
    simp only [AsciiF] at h
    rw [prettyFields]
    exact ascii_append (ascii_append (ascii_append (ascii_append (ascii_cons (by decide) (ascii_newline _)) (ascii_quote k h.1)) (by unfold Ascii; decide))
      (ascii_pretty v _ h.2.1)) (ascii_prettyF fs _ h.2.2)
end

theorem asciiE_of (l : List Json) (h : ∀ v ∈ l, AsciiJ v) : AsciiE (.of l) := by
  induction l with
  | nil => simp [Elems.of, AsciiE]
  | cons v l ih => simp only [Elems.of, AsciiE]; exact ⟨h v (by simp), ih fun x hx => h x (by simp [hx])⟩

/-! ## Beginnings -/

theorem ws_ext (t u : Text) (h : ws t ≠ []) : ws (t ++ u) = ws t ++ u := by
  induction t with
  | nil => exact absurd rfl h
  | cons c t ih =>
    by_cases hc : isWs c = true
    · rw [ws, List.dropWhile_cons_of_pos hc] at h
      rw [List.cons_append, ws, List.dropWhile_cons_of_pos hc, ws, List.dropWhile_cons_of_pos hc]
      exact ih h
    · have hc : isWs c = false := by simpa using hc
      rw [List.cons_append, ws_cons hc, ws_cons hc]; rfl

theorem string_ext (t : Text) : ∀ (u s r : Text), string t = some (s, r) → string (t ++ u) = some (s, r ++ u) := by
  induction t using Ccsds.Spec.Json.string.induct with
  | case1 => intro u s r h; simp [string] at h
  | case2 t =>
    intro u s r h
    rw [string] at h
    cases h
    rw [List.cons_append, string]
  | case3 a b c d t ih =>
    intro u s r h
    rw [string] at h
    simp only [Option.bind_eq_bind, Option.bind_eq_some_iff] at h
    obtain ⟨x1, h1, x2, h2, x3, h3, x4, h4, ⟨s', r'⟩, h5, h6⟩ := h
    simp only [List.cons_append]
    rw [string, h1, h2, h3, h4, ih u _ _ h5]
    cases h6
    rfl
  | case4 c t hne ih =>
    intro u s r h
    rw [string] at h
    · simp only [Option.bind_eq_bind, Option.bind_eq_some_iff] at h
      obtain ⟨x, h1, ⟨s', r'⟩, h5, h6⟩ := h
      simp only [List.cons_append]
      rw [string_esc c x _ h1, ih u _ _ h5]
      cases h6
      rfl
    · exact hne
  | case5 c t h1 h2 h3 h4 =>
    intro u s r h
    rw [string] at h
    · rw [if_pos h4] at h; cases h
    all_goals assumption
  | case6 c t h1 h2 h3 h4 ih =>
    intro u s r h
    rw [string] at h
    · rw [if_neg h4] at h
      simp only [Option.bind_eq_bind, Option.bind_eq_some_iff] at h
      obtain ⟨⟨s', r'⟩, h5, h6⟩ := h
      have hc : c ≠ '\\' := by
        rintro rfl
        cases t with
        | nil => simp [string] at h5
        | cons x t => exact h3 x t rfl rfl
      rw [List.cons_append, string_plain c _ (by intro e; exact h1 e) hc h4, ih u _ _ h5]
      cases h6
      rfl
    all_goals assumption

theorem takeWhile_ext (p : Char → Bool) (t u : Text) (h : t.dropWhile p ≠ []) : (t ++ u).takeWhile p = t.takeWhile p ∧ (t ++ u).dropWhile p = t.dropWhile p ++ u := by
  induction t with
  | nil => exact absurd rfl h
  | cons c t ih =>
    by_cases hc : p c = true
    · rw [List.dropWhile_cons_of_pos hc] at h
      obtain ⟨a, b⟩ := ih h
      simp [hc, a, b]
    · simp [hc]

theorem number_ext (t u r : Text) (n : Nat) (h : number t = some (n, r)) (hr : r ≠ []) : number (t ++ u) = some (n, r ++ u) := by
  unfold number at h ⊢
  simp only at h ⊢
  split at h
  · cases h
  · rename_i hc
    simp only [Option.some.injEq, Prod.mk.injEq] at h
    obtain ⟨h1, h2⟩ := h
    obtain ⟨a, b⟩ := takeWhile_ext Char.isDigit t u (by rw [h2]; exact hr)
    rw [a, b, if_neg hc, h1, h2]

/-- What is read stays the same when more text follows, except for a number at the end of the text. -/
def Ext (n : Nat) : Prop :=
  (∀ t u v r, value n t = some (v, r) → (r ≠ [] ∨ ∃ fs, v = .obj fs) → ∀ m, n ≤ m → value m (t ++ u) = some (v, r ++ u)) ∧
  (∀ t u v r, elements n t = some (v, r) → ∀ m, n ≤ m → elements m (t ++ u) = some (v, r ++ u)) ∧
  (∀ t u v r, members n t = some (v, r) → ∀ m, n ≤ m → members m (t ++ u) = some (v, r ++ u))

theorem value_ext (n : Nat) : Ext n := by
  induction n with
  | zero => exact ⟨fun _ _ _ _ h => by simp [value] at h, fun _ _ _ _ h => by simp [elements] at h, fun _ _ _ _ h => by simp [members] at h⟩
  | succ n ih =>
    obtain ⟨iv, ie, im⟩ := ih
    refine ⟨?_, ?_, ?_⟩
    · intro t u v r h hr m hm
      obtain ⟨m, rfl⟩ : ∃ k, m = k + 1 := ⟨m - 1, by omega⟩
      have hm' : n ≤ m := by omega
      rw [value] at h ⊢
      cases hw : ws t with
      | nil => rw [hw] at h; cases h
      | cons c s =>
        rw [hw] at h
        rw [ws_ext t u (by rw [hw]; simp), hw]
        simp only [List.cons_append] at h ⊢
        split at h
        · rename_i hc
          rw [if_pos hc]
          obtain ⟨⟨x, y⟩, h1, h2⟩ := Option.map_eq_some_iff.1 h
          cases h2
          rw [string_ext _ u _ _ h1]; rfl
        · rename_i hc1
          rw [if_neg hc1]
          split at h
          · rename_i hc2
            rw [if_pos hc2]
            split at h
            · rename_i h3
              cases h
              have hn : ws s ≠ [] := by intro e; rw [e] at h3; cases h3
              rw [ws_ext s u hn]
              cases hs : ws s with
              | nil => exact absurd hs hn
              | cons x y => rw [hs] at h3; simp only [List.cons_append]; rw [if_pos (by simpa using h3)]; rfl
            · rename_i h3
              obtain ⟨⟨x, y⟩, h1, h2⟩ := Option.map_eq_some_iff.1 h
              cases h2
              have hn : ws s ≠ [] := by
                intro e
                rw [elements_ws (t' := []) (by rw [e]; rfl)] at h1
                cases n with
                | zero => simp [elements] at h1
                | succ n =>
                  rw [elements] at h1
                  cases n <;> simp [value, ws] at h1
              rw [ws_ext s u hn]
              cases hs : ws s with
              | nil => exact absurd hs hn
              | cons x y => rw [hs] at h3; simp only [List.cons_append]; rw [if_neg (by simpa using h3), ie _ u _ _ h1 m hm']; rfl
          · rename_i hc2
            rw [if_neg hc2]
            split at h
            · rename_i hc3
              rw [if_pos hc3]
              split at h
              · rename_i h3
                cases h
                have hn : ws s ≠ [] := by intro e; rw [e] at h3; cases h3
                rw [ws_ext s u hn]
                cases hs : ws s with
                | nil => exact absurd hs hn
                | cons x y => rw [hs] at h3; simp only [List.cons_append]; rw [if_pos (by simpa using h3)]; rfl
              · rename_i h3
                obtain ⟨⟨x, y⟩, h1, h2⟩ := Option.map_eq_some_iff.1 h
                cases h2
                have hn : ws s ≠ [] := by
                  intro e
                  rw [members_ws (t' := []) (by rw [e]; rfl)] at h1
                  cases n <;> simp [members, ws] at h1
                rw [ws_ext s u hn]
                cases hs : ws s with
                | nil => exact absurd hs hn
                | cons x y => rw [hs] at h3; simp only [List.cons_append]; rw [if_neg (by simpa using h3), im _ u _ _ h1 m hm']; rfl
            · rename_i hc3
              rw [if_neg hc3]
              split at h
              · rename_i hc4
                rw [if_pos hc4]
                split at h
                · rename_i h3
                  cases h
                  have hl : 3 ≤ s.length := by
                    have := congrArg List.length h3
                    rw [List.length_take] at this
                    simp at this
                    omega
                  rw [List.take_append_of_le_length hl, if_pos h3, List.drop_append_of_le_length hl]
                · cases h
              · rename_i hc4
                rw [if_neg hc4]
                obtain ⟨⟨x, y⟩, h1, h2⟩ := Option.map_eq_some_iff.1 h
                cases h2
                rcases hr with hr | ⟨fs, hr⟩
                · have := number_ext _ u _ _ h1 hr
                  rw [List.cons_append] at this
                  rw [this]; rfl
                · cases hr
    · intro t u v r h m hm
      obtain ⟨m, rfl⟩ : ∃ k, m = k + 1 := ⟨m - 1, by omega⟩
      have hm' : n ≤ m := by omega
      rw [elements] at h ⊢
      simp only [Option.bind_eq_bind, Option.bind_eq_some_iff] at h
      obtain ⟨⟨x, y⟩, h1, h2⟩ := h
      simp only at h2
      have hwy : ws y ≠ [] := by intro e; rw [e] at h2; cases h2
      have hy : y ≠ [] := by rintro rfl; exact hwy rfl
      rw [iv _ u _ _ h1 (.inl hy) m hm']
      simp only [Option.bind_eq_bind, Option.bind_some]
      rw [ws_ext y u hwy]
      cases hs : ws y with
      | nil => exact absurd hs hwy
      | cons c z =>
        rw [hs] at h2
        simp only [List.cons_append] at h2 ⊢
        split at h2
        · rename_i hc
          rw [if_pos hc]
          cases h2; rfl
        · rename_i hc
          rw [if_neg hc]
          split at h2
          · rename_i hc
            rw [if_pos hc]
            obtain ⟨⟨a, b⟩, h3, h4⟩ := Option.map_eq_some_iff.1 h2
            cases h4
            rw [ie _ u _ _ h3 m hm']; rfl
          · cases h2
    · intro t u v r h m hm
      obtain ⟨m, rfl⟩ : ∃ k, m = k + 1 := ⟨m - 1, by omega⟩
      have hm' : n ≤ m := by omega
      rw [members] at h ⊢
      cases hw : ws t with
      | nil => rw [hw] at h; cases h
      | cons c s =>
        rw [hw] at h
        rw [ws_ext t u (by rw [hw]; simp), hw]
        simp only [List.cons_append] at h ⊢
        split at h
        · cases h
        · rename_i hc
          rw [if_neg hc]
          simp only [Option.bind_eq_bind, Option.bind_eq_some_iff] at h
          obtain ⟨⟨k, y⟩, h1, h2⟩ := h
          rw [string_ext _ u _ _ h1]
          simp only [Option.bind_eq_bind, Option.bind_some] at h2 ⊢
          have hwy : ws y ≠ [] := by intro e; rw [e] at h2; cases h2
          rw [ws_ext y u hwy]
          cases hs : ws y with
          | nil => exact absurd hs hwy
          | cons c z =>
            rw [hs] at h2
            simp only [List.cons_append] at h2 ⊢
            split at h2
            · cases h2
            · rename_i hc
              rw [if_neg hc]
              simp only [Option.bind_eq_some_iff] at h2
              obtain ⟨⟨w, q⟩, h3, h4⟩ := h2
              simp only at h4
              have hwq : ws q ≠ [] := by intro e; rw [e] at h4; cases h4
              have hq : q ≠ [] := by rintro rfl; exact hwq rfl
              rw [iv _ u _ _ h3 (.inl hq) m hm']
              simp only [Option.bind_some]
              rw [ws_ext q u hwq]
              cases hs : ws q with
              | nil => exact absurd hs hwq
              | cons c z =>
                rw [hs] at h4
                simp only [List.cons_append] at h4 ⊢
                split at h4
                · rename_i hc
                  rw [if_pos hc]
                  cases h4; rfl
                · rename_i hc
                  rw [if_neg hc]
                  split at h4
                  · rename_i hc
                    rw [if_pos hc]
                    obtain ⟨⟨a, b⟩, h5, h6⟩ := Option.map_eq_some_iff.1 h4
                    cases h6
                    rw [im _ u _ _ h5 m hm']; rfl
                  · cases h4

/-- A proper beginning of a printed object is no JSON text. -/
theorem parse_prefix (fs : Fields) (t : Text) (h : t <+: pretty 0 (.obj fs)) (hne : t ≠ pretty 0 (.obj fs)) : parse t = none := by
  obtain ⟨u, hu⟩ := h
  have hu0 : u ≠ [] := by rintro rfl; rw [List.append_nil] at hu; exact hne hu
  cases hv : value (t.length + 1) t with
  | none => rw [parse, hv]
  | some x =>
    exfalso
    obtain ⟨v, r⟩ := x
    have hfull := value_pretty (.obj fs) 0 ((t ++ u).length + 1) [] (by rw [hu]; exact Nat.le_succ_of_le (size_le _ 0)) (by intro c hc; cases hc)
    rw [List.append_nil, ← hu] at hfull
    have hobj : ∃ gs, v = .obj gs := by
      have hhead : ∃ t', t = '{' :: t' := by
        cases t with
        | nil => simp [value, ws] at hv
        | cons c t' =>
          have : (pretty 0 (.obj fs)).head? = some '{' := by cases fs <;> simp [pretty]
          rw [← hu] at this
          simp at this
          exact ⟨t', by rw [this]⟩
      obtain ⟨t', rfl⟩ := hhead
      rw [value, ws_cons (by decide)] at hv
      simp only [show ('{' : Char) ≠ '"' from by decide, show ('{' : Char) ≠ '[' from by decide, if_false, if_true] at hv
      split at hv
      · cases hv; exact ⟨_, rfl⟩
      · obtain ⟨⟨a, b⟩, _, h2⟩ := Option.map_eq_some_iff.1 hv
        cases h2; exact ⟨_, rfl⟩
    have := (value_ext (t.length + 1)).1 t u v r hv (.inr hobj) ((t ++ u).length + 1) (by rw [List.length_append]; omega)
    rw [this] at hfull
    simp only [Option.some.injEq, Prod.mk.injEq, List.append_eq_nil_iff] at hfull
    exact hu0 hfull.2.2

end Ccsds.Report
