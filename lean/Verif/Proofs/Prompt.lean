import Verif.Proofs.SyncStreaming
import Verif.Props.Streaming
/-! A complete block is found without reading past its last byte. -/
namespace Ccsds
open Spec
namespace Sync

theorem block_andThen_full {s s' : State} {d : List U8} (hp : s.bytes.reader.Plain)
    (hf : (s.bytes.fill (if s.patternIdx ≠ 0 then s.blockSize + 1 else s.blockSize)).1 = .ok true) (h : block s = (.ok d, s'))
    (more : List Ev) (t : Tail) : block (s.andThen more t) = (.ok d, s'.andThen more t) := by
  unfold block at h ⊢
  simp only [State.andThen] at h ⊢
  cases hf' : s.bytes.fill (if s.patternIdx ≠ 0 then s.blockSize + 1 else s.blockSize) with
  | mk o y =>
    obtain ⟨buf, b⟩ := y
    rw [hf'] at h hf
    simp only at hf
    subst hf
    simp only [Prod.mk.injEq, Except.ok.injEq] at h
    obtain ⟨rfl, rfl⟩ := h
    have f2 := (Bytes.fill_andThen hp hf' more t).2.1 rfl
    by_cases h0 : s.patternIdx = 0
    · simp only [h0, ne_eq, not_true_eq_false, if_false] at f2 ⊢
      rw [f2]
    · simp only [h0, ne_eq, not_false_eq_true, if_true] at f2 ⊢
      rw [f2]
      rfl

/-- A complete block, and what it leaves in the reader. -/
theorem block_full_reader (asm : List U8) (len : Nat) (s : State) (rem : List U8) (pos q : Nat) (h : At asm len s rem pos q)
    (hc : s.bytes.cache.length = if q = 0 then 0 else 1) (hr : 8 * len + q ≤ 8 * rem.length) :
    (s.bytes.fill (if s.patternIdx ≠ 0 then s.blockSize + 1 else s.blockSize)).1 = .ok true ∧
    Smooth (block s).2.bytes.reader (rem.drop (len + if q = 0 then 0 else 1)) ∧ (block s).2.bytes.cache.length = if q = 0 then 0 else 1 := by
  obtain ⟨rr, r1, r2, r3⟩ := h.rep
  by_cases h0 : q = 0
  · subst h0
    simp only [if_true] at hc
    have hc' := List.length_eq_zero_iff.1 hc
    simp only [hc', List.reverse_nil, List.nil_append] at r2
    subst r2
    obtain ⟨r', e1, e2⟩ := smooth_enough r1 (n := len) (by omega)
    have hf := fill_empty_ok hc' e2
    rw [← h.size] at hf
    have hbl := block_aligned h.idx hf
    refine ⟨by rw [h.idx]; simp [hf], by rw [hbl]; simpa using e1, by rw [hbl]; rfl⟩
  · rw [if_neg h0] at hc
    obtain ⟨b, hb⟩ := List.length_eq_one_iff.1 hc
    simp only [hb, List.reverse_singleton, List.singleton_append] at r2
    subst r2
    have hlt := h.lt
    simp only [List.length_cons] at hr
    have hle : len ≤ rr.length := by omega
    obtain ⟨r', e1, e2⟩ := smooth_enough r1 hle
    have hne : s.patternIdx ≠ 0 := by rw [h.idx]; exact h0
    have hf := fill_one_ok hb e2
    rw [← h.size] at hf
    have hbl := block_shifted hne hf
    refine ⟨by rw [if_pos hne, hf], ?_, by rw [hbl, if_neg h0]; simp [Bytes.push]⟩
    rw [hbl, if_neg h0, List.drop_succ_cons]
    exact e1

theorem at_plain {asm : List U8} {len : Nat} {s : State} {rem : List U8} {pos p : Nat} (h : At asm len s rem pos p) : s.bytes.reader.Plain := by
  obtain ⟨rr, r1, _⟩ := h.rep
  exact ⟨r1.1, r1.2.2⟩

/-- Everything up to a complete block, with more to come. -/
theorem prompt_run (S asm : List U8) (hasm : asm ≠ []) (len : Nat) (more : List Ev) (tail : Tail) (k : Nat) :
    ∀ (s : State) (pos p last : Nat) (ps : List Nat) (i : Nat), At asm len s (S.drop pos) pos p → last ≤ pos + 1 →
    Markers (bits asm) (bits S) (8 * len) (8 * pos + p) ps → ps[k]? = some i → i + 8 * asm.length + 8 * len ≤ 8 * S.length →
    ∃ items t, Takes next (Iter.andThen more tail ⟨s, last⟩) items (Iter.andThen more tail t) ∧ ItemsOK S asm.length len last (ps.take (k + 1)) items ∧
      Smooth t.scanner.bytes.reader (S.drop ((i + 8 * asm.length + 8 * len + 7) / 8)) := by
  induction k with
  | zero =>
    intro s pos p last ps i h hlast hm hk hi
    have hl : 0 < asm.length := List.length_pos_iff.2 hasm
    cases hm with
    | none => simp at hk
    | @cons _ i0 ps hf hm =>
    simp only [List.getElem?_cons_zero, Option.some.injEq] at hk
    subst hk
    rcases scan_spec asm hasm len _ s _ pos p rfl h with ⟨j, q, s', a1, a2, a3, a4, a5⟩ | ⟨s', pos', p', a1, a2, a3⟩
    · rw [bits_drop] at a2
      have hf' := firstAt_drop a2
      obtain rfl := firstAt_unique hf hf'
      have hocc := occurs_len (bits_ne_nil hasm) hf.2.1
      simp only [bits_length] at hocc
      rw [List.drop_drop] at a4
      have hi8 : (8 * pos + (8 * j + q)) / 8 = pos + j := by omega
      have him : (8 * pos + (8 * j + q)) % 8 = q := by omega
      have hlast' : ¬ (last ≠ 0 ∧ pos + j + asm.length + 1 < last) := by omega
      have hfull : 8 * len + q ≤ 8 * (S.drop (pos + (j + asm.length))).length := by simp only [List.length_drop]; omega
      obtain ⟨data, s'', b1, b2, b3, b4⟩ := block_full asm len s' _ _ q a4 a5 hfull
      obtain ⟨g1, g2, g3⟩ := block_full_reader asm len s' _ _ q a4 a5 hfull
      obtain ⟨c1, c2⟩ := scan_andThen more tail s _ _ (at_plain h) a3
      have c3 := block_andThen_full c2 g1 b1 more tail
      rw [b1] at g2
      refine ⟨[.ok ⟨if last = 0 then 0 else pos + j + asm.length + 1 - last, ⟨pos + j + asm.length + 1, BitVec.ofNat 8 ((8 - q) % 8)⟩, data⟩],
        ⟨s'', pos + j + asm.length + 1⟩, .cons ?_ .nil, ?_, ?_⟩
      · simp only [next, Iter.andThen, c1, c3]
        rw [if_neg hlast']
        rfl
      · refine ⟨?_, trivial⟩
        unfold ItemOK
        rw [if_pos hi, hi8, him]
        refine ⟨data, b2, ?_, rfl⟩
        rw [b3, bits_drop, List.drop_drop]
        congr 2; omega
      · rw [List.drop_drop] at g2
        have : (8 * pos + (8 * j + q) + 8 * asm.length + 8 * len + 7) / 8 = pos + (j + asm.length) + (len + if q = 0 then 0 else 1) := by
          split <;> omega
        rw [this]
        exact g2
    · exfalso
      apply a1 (i0 - 8 * pos) (by have := hf.1; omega)
      have := hf.1
      rw [bits_drop, occurs_succ, show 8 * pos + (i0 - 8 * pos) = i0 by omega]
      exact hf.2.1
  | succ k ih =>
    intro s pos p last ps i h hlast hm hk hi
    have hl : 0 < asm.length := List.length_pos_iff.2 hasm
    cases hm with
    | none => simp at hk
    | @cons _ i0 ps hf hm =>
    simp only [List.getElem?_cons_succ] at hk
    have hroom := (markers_room (bits_ne_nil hasm) hm).1 i (List.mem_of_getElem? hk)
    simp only [bits_length] at hroom
    rcases scan_spec asm hasm len _ s _ pos p rfl h with ⟨j, q, s', a1, a2, a3, a4, a5⟩ | ⟨s', pos', p', a1, a2, a3⟩
    · rw [bits_drop] at a2
      have hf' := firstAt_drop a2
      obtain rfl := firstAt_unique hf hf'
      have hocc := occurs_len (bits_ne_nil hasm) hf.2.1
      simp only [bits_length] at hocc
      rw [List.drop_drop] at a4
      have hi8 : (8 * pos + (8 * j + q)) / 8 = pos + j := by omega
      have him : (8 * pos + (8 * j + q)) % 8 = q := by omega
      have hlast' : ¬ (last ≠ 0 ∧ pos + j + asm.length + 1 < last) := by omega
      have hfull : 8 * len + q ≤ 8 * (S.drop (pos + (j + asm.length))).length := by simp only [List.length_drop]; omega
      obtain ⟨data, s'', b1, b2, b3, b4⟩ := block_full asm len s' _ _ q a4 a5 hfull
      obtain ⟨g1, g2, g3⟩ := block_full_reader asm len s' _ _ q a4 a5 hfull
      obtain ⟨c1, c2⟩ := scan_andThen more tail s _ _ (at_plain h) a3
      have c3 := block_andThen_full c2 g1 b1 more tail
      rw [List.drop_drop] at b4
      obtain ⟨items, t, d1, d2, d3⟩ := ih s'' (pos + (j + asm.length) + len) q (pos + j + asm.length + 1) ps i (by
          rw [show pos + j + asm.length + len = pos + (j + asm.length) + len by omega] at b4
          exact b4) (by omega) (by
          rw [bits_length, show 8 * pos + (8 * j + q) + 8 * asm.length + 8 * len = 8 * (pos + (j + asm.length) + len) + q by omega] at hm
          exact hm) hk hi
      refine ⟨.ok ⟨if last = 0 then 0 else pos + j + asm.length + 1 - last, ⟨pos + j + asm.length + 1, BitVec.ofNat 8 ((8 - q) % 8)⟩, data⟩ :: items, t,
        .cons ?_ d1, ?_, d3⟩
      · simp only [next, Iter.andThen, c1, c3]
        rw [if_neg hlast']
        rfl
      · rw [List.take_succ_cons]
        refine ⟨?_, by rw [hi8]; exact d2⟩
        unfold ItemOK
        rw [if_pos (by omega), hi8, him]
        refine ⟨data, b2, ?_, rfl⟩
        rw [b3, bits_drop, List.drop_drop]
        congr 2; omega
    · exfalso
      apply a1 (i0 - 8 * pos) (by have := hf.1; omega)
      have := hf.1
      rw [bits_drop, occurs_succ, show 8 * pos + (i0 - 8 * pos) = i0 by omega]
      exact hf.2.1

/-- Items are determined by the markers. -/
theorem itemsOK_unique {S : List U8} {n len : Nat} : ∀ {ps : List Nat} {prev : Nat} {a c : List (Except Error Block)}, ItemsOK S n len prev ps a →
    ItemsOK S n len prev ps c → a = c := by
  intro ps
  induction ps with
  | nil => intro prev a c h k; cases a <;> cases c <;> first | rfl | exact h.elim | exact k.elim
  | cons p ps ih =>
    intro prev a c h k
    cases a with
    | nil => exact h.elim
    | cons x a =>
      cases c with
      | nil => exact k.elim
      | cons y c =>
        rw [ih h.2 k.2]
        congr 1
        have h := h.1
        have k := k.1
        unfold ItemOK at h k
        split at h
        · rename_i hc
          rw [if_pos hc] at k
          obtain ⟨d, _, h2, rfl⟩ := h
          obtain ⟨d', _, k2, rfl⟩ := k
          rw [← k2] at h2
          rw [bits_inj h2]
        · rename_i hc
          rw [if_neg hc] at k
          split at h
          · rename_i h0
            rw [if_pos h0] at k
            rw [h, k]
          · rename_i h0
            rw [if_neg h0] at k
            rw [h, k]

theorem itemsOK_take {S : List U8} {n len : Nat} : ∀ (ps : List Nat) (prev : Nat) (a : List (Except Error Block)) (k : Nat), ItemsOK S n len prev ps a →
    ItemsOK S n len prev (ps.take k) (a.take k) := by
  intro ps
  induction ps with
  | nil => intro prev a k h; cases a <;> first | exact h.elim | (simp only [List.take_nil]; exact h)
  | cons p ps ih =>
    intro prev a k h
    cases a with
    | nil => exact h.elim
    | cons x a =>
      cases k with
      | zero => simp only [List.take_zero]; trivial
      | succ k => simp only [List.take_succ_cons]; exact ⟨h.1, ih _ _ _ h.2⟩

end Sync
end Ccsds
