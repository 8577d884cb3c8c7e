import Verif.Spec.Reader
/-! Lemmas about `read_exact`. -/
namespace Ccsds
open Reader

@[simp] theorem evBytes_nil : evBytes [] = [] := rfl
@[simp] theorem evBytes_cons (e : Ev) (es : List Ev) : evBytes (e :: es) = e.bytes ++ evBytes es := rfl
@[simp] theorem evBytes_append (a b : List Ev) : evBytes (a ++ b) = evBytes a ++ evBytes b := by
  simp [evBytes, List.flatMap_append]

theorem readExactGo_zero (t : Tail) (es : List Ev) (acc : List U8) : readExactGo t es 0 acc = (none, acc, es) := by
  cases es with
  | nil => rfl
  | cons e es => cases e <;> rfl

/-- Enough bytes available: success. -/
theorem readExactGo_enough (t : Tail) (pre rest : List Ev) (hg : ∀ e ∈ pre, e.Good) (n : Nat) (acc : List U8)
    (h : n ≤ (evBytes pre).length) :
    ∃ pre', (∀ e ∈ pre', e.Good) ∧ evBytes pre' = (evBytes pre).drop n ∧
      readExactGo t (pre ++ rest) n acc = (none, acc ++ (evBytes pre).take n, pre' ++ rest) := by
  induction pre generalizing n acc with
  | nil =>
    simp at h; subst h
    exact ⟨[], by simp, by simp, by simp [readExactGo_zero]⟩
  | cons e pre ih =>
    match n with
    | 0 => exact ⟨e :: pre, hg, by simp, by simp [readExactGo_zero]⟩
    | n + 1 =>
      have hg' : ∀ e ∈ pre, e.Good := fun e he => hg e (List.mem_cons_of_mem _ he)
      rcases hg e List.mem_cons_self with ⟨c, hc, rfl⟩ | rfl
      · simp only [List.cons_append, readExactGo, hc, if_false]
        simp only [evBytes_cons, Ev.bytes, List.length_append] at h ⊢
        by_cases hl : c.length ≤ n + 1
        · rw [if_pos hl]
          obtain ⟨pre', h1, h2, h3⟩ := ih hg' (n + 1 - c.length) (acc ++ c) (by omega)
          refine ⟨pre', h1, ?_, ?_⟩
          · rw [h2, List.drop_append, List.drop_eq_nil_of_le hl, List.nil_append]
          · rw [h3, List.take_append, List.take_of_length_le hl, List.append_assoc]
        · rw [if_neg hl]
          refine ⟨.data (c.drop (n + 1)) :: pre, ?_, ?_, ?_⟩
          · intro e he
            rcases List.mem_cons.1 he with rfl | he
            · left; exact ⟨_, by simp; omega, rfl⟩
            · exact hg' e he
          · simp only [evBytes_cons, Ev.bytes]
            rw [List.drop_append_of_le_length (by omega)]
          · rw [List.take_append_of_le_length (by omega)]; simp
      · simp only [List.cons_append, readExactGo, if_true]
        simp only [evBytes_cons, Ev.bytes, List.nil_append] at h ⊢
        obtain ⟨pre', h1, h2, h3⟩ := ih hg' (n + 1) acc h
        exact ⟨pre', h1, h2, h3⟩

/-- Not enough bytes yet: carry on with what follows. -/
theorem readExactGo_short (t : Tail) (pre rest : List Ev) (hg : ∀ e ∈ pre, e.Good) (n : Nat) (acc : List U8)
    (h : (evBytes pre).length < n) :
    readExactGo t (pre ++ rest) n acc = readExactGo t rest (n - (evBytes pre).length) (acc ++ evBytes pre) := by
  induction pre generalizing n acc with
  | nil => simp
  | cons e pre ih =>
    match n with
    | 0 => omega
    | n + 1 =>
      have hg' : ∀ e ∈ pre, e.Good := fun e he => hg e (List.mem_cons_of_mem _ he)
      rcases hg e List.mem_cons_self with ⟨c, hc, rfl⟩ | rfl
      · simp only [List.cons_append, readExactGo, hc, if_false]
        simp only [evBytes_cons, Ev.bytes, List.length_append] at h ⊢
        rw [if_pos (by omega), ih hg' _ _ (by omega), List.append_assoc, Nat.sub_sub]
      · simp only [List.cons_append, readExactGo, if_true]
        simp only [evBytes_cons, Ev.bytes, List.nil_append] at h ⊢
        rw [ih hg' _ _ h]

/-- `read_exact` on a stream with enough bytes. -/
theorem readExact_enough {r : Reader} {bs : List U8} (hd : r.Delivers bs) {n : Nat} (h : n ≤ bs.length) :
    ∃ r' : Reader, r'.Delivers (bs.drop n) ∧ r.readExact n = (none, bs.take n, r') := by
  obtain ⟨hg, he, ht⟩ := hd
  obtain ⟨pre', h1, h2, h3⟩ := readExactGo_enough r.tail r.script [] hg n [] (by rw [he]; exact h)
  refine ⟨⟨pre', r.tail⟩, ⟨h1, by rw [← he]; exact h2, ht⟩, ?_⟩
  simp only [List.append_nil, List.nil_append] at h3
  simp [readExact, h3, he]

/-- `read_exact` on a stream that ends too early. -/
theorem readExact_short {r : Reader} {bs : List U8} (hd : r.Delivers bs) {n : Nat} (h : bs.length < n) :
    ∃ r' : Reader, r'.Delivers [] ∧ r.readExact n = (some .unexpectedEof, bs, r') := by
  obtain ⟨hg, he, ht⟩ := hd
  have h3 := readExactGo_short r.tail r.script [] hg n [] (by rw [he]; exact h)
  refine ⟨⟨[], r.tail⟩, ⟨by simp, rfl, ht⟩, ?_⟩
  simp only [List.append_nil, List.nil_append, he] at h3
  obtain ⟨m, hm⟩ : ∃ m, n - bs.length = m + 1 := ⟨n - bs.length - 1, by omega⟩
  rw [hm, ht] at h3
  simp [readExact, h3, readExactGo, ht]

end Ccsds
