import Verif.Spec.AnyReads
import Verif.Proofs.SyncInterrupt
import Verif.Proofs.SyncErrors
/-! Lemmas about the synchronizer on a reader that does anything. -/
namespace Ccsds
open Spec

namespace Sync

theorem upsets_shift (es : List Ev) : ∀ (a c : Nat), upsetsFrom (a + c) es = (upsetsFrom a es).map fun u => (u.1 + c, u.2) := by
  induction es with
  | nil => intro a c; rfl
  | cons e es ih =>
    intro a c
    cases e with
    | data d =>
      simp only [upsetsFrom]
      split
      · simp [ih]
      · rw [← ih]; congr 1; omega
    | err k => simp [upsetsFrom, ih]

theorem upsets_bounds (es : List Ev) : ∀ (a : Nat), ∀ u ∈ upsetsFrom a es, a ≤ u.1 ∧ u.1 ≤ a + (evBytes es).length := by
  induction es with
  | nil => intro a u hu; simp [upsetsFrom] at hu
  | cons e es ih =>
    intro a u hu
    cases e with
    | data d =>
      simp only [evBytes_cons, Ev.bytes, List.length_append]
      simp only [upsetsFrom] at hu
      split at hu
      · rcases List.mem_cons.1 hu with rfl | hu
        · simp
        · have := ih a u hu; omega
      · have := ih _ u hu; omega
    | err k =>
      simp only [evBytes_cons, Ev.bytes, List.nil_append]
      simp only [upsetsFrom] at hu
      rcases List.mem_cons.1 hu with rfl | hu
      · simp
      · exact ih a u hu

/-- The bytes still to come are `rem`, the first of them is at `pos`; it is counted as `base + pos`. -/
structure XRep (T : IoKind) (base : Nat) (D : List (Nat × IoKind)) (b : Bytes) (rem : List U8) (pos : Nat) : Prop where
  bytes : b.cache.reverse ++ evBytes b.reader.script = rem
  num : b.numRead = base + pos + b.cache.length
  ups : upsetsFrom (pos + b.cache.length) b.reader.script = D
  tail : everAfter b.reader.tail = T

theorem xrep_bounds {T : IoKind} {base : Nat} {D : List (Nat × IoKind)} {b : Bytes} {rem : List U8} {pos : Nat} (h : XRep T base D b rem pos) :
    b.cache.length ≤ rem.length ∧ ∀ u ∈ D, pos + b.cache.length ≤ u.1 ∧ u.1 ≤ pos + rem.length := by
  have hl := congrArg List.length h.bytes
  simp only [List.length_append, List.length_reverse] at hl
  refine ⟨by omega, ?_⟩
  intro u hu
  rw [← h.ups] at hu
  have := upsets_bounds _ _ u hu
  omega

theorem getD_bounds {D : List (Nat × IoKind)} {a b n : Nat} {T k : IoKind} (h : ∀ u ∈ D, a ≤ u.1 ∧ u.1 ≤ b) (hab : a ≤ b) (hd : D.head?.getD (b, T) = (n, k)) :
    a ≤ n ∧ n ≤ b := by
  cases D with
  | nil => simp only [List.head?_nil, Option.getD_none, Prod.mk.injEq] at hd; omega
  | cons u D =>
    simp only [List.head?_cons, Option.getD_some] at hd
    subst hd
    exact h _ List.mem_cons_self

theorem xrep_next {T k : IoKind} {base : Nat} {D : List (Nat × IoKind)} {b : Bytes} {rem : List U8} {pos n : Nat} (h : XRep T base D b rem pos)
    (hd : D.head?.getD (pos + rem.length, T) = (n, k)) : pos + b.cache.length ≤ n ∧ n ≤ pos + rem.length := by
  obtain ⟨h1, h2⟩ := xrep_bounds h
  exact getD_bounds h2 (by omega) hd

/-- Reading one byte. -/
theorem xnext {T : IoKind} {base : Nat} {D : List (Nat × IoKind)} {b : Bytes} {rem : List U8} {pos : Nat} (h : XRep T base D b rem pos) :
    (∃ x xs b', rem = x :: xs ∧ b.next = (.ok x, b') ∧ XRep T base D b' xs (pos + 1) ∧ b'.cache.length = b.cache.length - 1) ∨
    (∃ k b', D.head?.getD (pos + rem.length, T) = (pos, k) ∧ b.next = (.error k, b') ∧ XRep T base D.tail b' rem pos ∧ b'.cache = []) := by
  obtain ⟨h1, h2, h3, h4⟩ := h
  cases hc : b.cache.reverse with
  | cons y ys =>
    have hc' : b.cache = ys.reverse ++ [y] := by
      have := congrArg List.reverse hc; simpa using this
    rw [hc] at h1
    left
    refine ⟨y, ys ++ evBytes b.reader.script, ⟨b.reader, b.numRead, ys.reverse⟩, by rw [← h1]; rfl, by simp [Bytes.next, hc'],
      ⟨by simp, ?_, ?_, h4⟩, by simp [hc']⟩
    · simp only [hc', List.length_append, List.length_singleton] at h2; simp only; omega
    · simp only [hc', List.length_append, List.length_singleton] at h3
      simp only
      rw [← h3]; congr 1; omega
  | nil =>
    have hc' : b.cache = [] := by simpa using hc
    rw [hc] at h1
    simp only [List.nil_append] at h1
    subst h1
    simp only [hc', List.length_nil, Nat.add_zero] at h2 h3
    cases hs : b.reader.script with
    | nil =>
      rw [hs] at h3
      simp only [upsetsFrom] at h3
      subst h3
      right
      refine ⟨T, b, by simp, ?_, ⟨by simp [hc', hs], by simp [hc', h2], by simp [hs, upsetsFrom], h4⟩, hc'⟩
      obtain ⟨⟨br, bt⟩, bn, bc⟩ := b
      simp only at hc' hs h4
      subst hc' hs
      cases bt <;> simp only [everAfter] at h4 <;> subst h4 <;> simp [Bytes.next, Reader.read]
    | cons e es =>
      rw [hs] at h3
      cases e with
      | data c =>
        match c with
        | [] =>
          simp only [upsetsFrom, if_true] at h3
          subst h3
          right
          exact ⟨.unexpectedEof, ⟨{ b.reader with script := es }, b.numRead, b.cache⟩, by simp, by simp [Bytes.next, hc', Reader.read, hs],
            ⟨by simp [hc', Ev.bytes], by simp [hc', h2], by simp [hc'], h4⟩, hc'⟩
        | [y] =>
          left
          refine ⟨y, evBytes es, ⟨{ b.reader with script := es }, b.numRead + 1, b.cache⟩, rfl, by simp [Bytes.next, hc', Reader.read, hs],
            ⟨by simp [hc'], by simp [hc', h2]; omega, ?_, h4⟩, by simp [hc']⟩
          simpa [upsetsFrom, hc'] using h3
        | y :: z :: c =>
          left
          refine ⟨y, z :: c ++ evBytes es, ⟨{ b.reader with script := .data (z :: c) :: es }, b.numRead + 1, b.cache⟩, rfl, by simp [Bytes.next, hc', Reader.read, hs],
            ⟨by simp [hc', Ev.bytes], by simp [hc', h2]; omega, ?_, h4⟩, by simp [hc']⟩
          simp only [upsetsFrom, List.length_cons, hc', List.length_nil, Nat.add_zero, reduceCtorEq, if_false] at h3 ⊢
          rw [← h3]; congr 1; omega
      | err k =>
        simp only [upsetsFrom] at h3
        subst h3
        right
        exact ⟨k, ⟨{ b.reader with script := es }, b.numRead, b.cache⟩, by simp, by simp [Bytes.next, hc', Reader.read, hs],
            ⟨by simp [hc', Ev.bytes], by simp [hc', h2], by simp [hc'], h4⟩, hc'⟩

theorem xpush {T : IoKind} {base : Nat} {D : List (Nat × IoKind)} {b : Bytes} {rem w : List U8} {pos : Nat} (h : XRep T base D b rem (pos + w.length)) :
    XRep T base D (b.push w.reverse) (w ++ rem) pos := by
  obtain ⟨h1, h2, h3, h4⟩ := h
  refine ⟨by simp [Bytes.push, h1], by simp [Bytes.push, h2]; omega, ?_, h4⟩
  simp only [Bytes.push, List.length_append, List.length_reverse]
  rw [← h3]; congr 1; omega

/-- What comparing one pattern does. -/
theorem xattempt (T : IoKind) (base : Nat) (D : List (Nat × IoKind)) (pm : List (U8 × U8)) : ∀ (w : List U8) (b : Bytes) (rem : List U8) (pos : Nat),
    XRep T base D b rem pos →
    (∃ j b', 1 ≤ j ∧ j ≤ pm.length ∧ j ≤ rem.length ∧ attempt pm w b = .mismatch (w ++ rem.take j) b' ∧
        XRep T base D b' (rem.drop j) (pos + j) ∧ b'.cache.length = b.cache.length - j ∧ ¬ MatchPM (pm.take j) rem) ∨
    (∃ b', pm.length ≤ rem.length ∧ MatchPM pm rem ∧ attempt pm w b = .found (w ++ rem.take pm.length) b' ∧
        XRep T base D b' (rem.drop pm.length) (pos + pm.length) ∧ b'.cache.length = b.cache.length - pm.length) ∨
    (∃ j k b', j < pm.length ∧ j ≤ rem.length ∧ D.head?.getD (pos + rem.length, T) = (pos + j, k) ∧ attempt pm w b = .io k b' ∧
        MatchPM (pm.take j) rem ∧ XRep T base D.tail b' (rem.drop j) (pos + j) ∧ b'.cache = []) := by
  induction pm with
  | nil =>
    intro w b rem pos h
    right; left
    exact ⟨b, by simp, trivial, by simp [attempt], by simpa using h, by simp⟩
  | cons e pm ih =>
    obtain ⟨p, m⟩ := e
    intro w b rem pos h
    rcases xnext h with ⟨x, xs, b', rfl, h1, h2, h3⟩ | ⟨k, b', h0, h1, h2, h3⟩
    · by_cases hx : x &&& m = p
      · have ea : attempt ((p, m) :: pm) w b = attempt pm (w ++ [x]) b' := by simp [attempt, h1, hx]
        rw [ea]
        rcases ih (w ++ [x]) b' xs (pos + 1) h2 with ⟨j, b'', a1, a2, a3, a4, a5, a6, a7⟩ | ⟨b'', a1, a2, a3, a4, a5⟩ | ⟨j, k, b'', a1, a2, a3, a4, a5, a6, a7⟩
        · left
          refine ⟨j + 1, b'', by omega, by simp; omega, by simp; omega, by simp [a4], ?_, by omega, ?_⟩
          · simpa [Nat.add_assoc, Nat.add_comm 1 j] using a5
          · intro hm; exact a7 hm.2
        · right; left
          refine ⟨b'', by simp; omega, ⟨hx, a2⟩, by simp [a3], ?_, by simp only [List.length_cons]; omega⟩
          simpa [Nat.add_assoc, Nat.add_comm 1] using a4
        · right; right
          refine ⟨j + 1, k, b'', by simp; omega, by simp; omega, ?_, a4, ⟨hx, a5⟩, ?_, a7⟩
          · rw [List.length_cons, show pos + (xs.length + 1) = pos + 1 + xs.length by omega, a3, show pos + 1 + j = pos + (j + 1) by omega]
          · simpa [Nat.add_assoc, Nat.add_comm 1 j] using a6
      · left
        refine ⟨1, b', by omega, by simp, by simp, by simp [attempt, h1, hx], by simpa using h2, h3, ?_⟩
        intro hm; exact hx hm.1
    · right; right
      exact ⟨0, k, b', by simp, by simp, by simpa using h0, by simp [attempt, h1], by simp [MatchPM], by simpa using h2, h3⟩

/-- Synchronizer state `s` is about to examine bit `8 * pos + p` of what is to come, `V`. -/
structure XAt (asm : List U8) (len : Nat) (T : IoKind) (V : List U8) (base : Nat) (D : List (Nat × IoKind)) (s : State) (pos p : Nat) : Prop where
  rep : XRep T base D s.bytes (V.drop pos) pos
  pats : s.patterns = patterns asm
  msks : s.masks = masks asm
  idx : s.patternIdx = p
  lt : p < 8
  size : s.blockSize = len
  cache : s.bytes.cache.length ≤ asm.length + (if p = 0 then 0 else 1)
  pos_le : pos ≤ V.length

/-- Scanning: the first occurrence of the marker at or after the current bit, or something goes wrong. -/
theorem xscan_spec (asm : List U8) (hasm : asm ≠ []) (len : Nat) (T : IoKind) (V : List U8) (base : Nat) (D : List (Nat × IoKind)) (n : Nat) :
    ∀ (s : State) (pos p : Nat), n = 9 * (V.length - pos) + (8 - p) → XAt asm len T V base D s pos p →
    (∃ j q s', q < 8 ∧ FirstAt (bits asm) (bits V) (8 * pos + p) (8 * j + q) ∧ pos ≤ j ∧
      scan s = .ret (.ok (some ⟨base + j + asm.length + 1, BitVec.ofNat 8 ((8 - q) % 8)⟩), s') ∧
      XAt asm len T V base D s' (j + asm.length) q ∧ s'.bytes.cache.length = (if q = 0 then 0 else 1)) ∨
    (∃ s' x n k, nextUpset T V D = (n, k) ∧ pos ≤ n ∧ FirstCandidate (bits asm) (bits V) (8 * n) (8 * pos + p) x ∧
      8 * n < x + 8 * asm.length ∧ scan s = .ret (if k = .unexpectedEof then .ok none else .error (.io k), s') ∧
      XAt asm len T V base D.tail s' n (x % 8)) := by
  induction n using Nat.strongRecOn with
  | ind n ih =>
  intro s pos p hn h
  have hl : 0 < asm.length := List.length_pos_iff.2 hasm
  rw [gscan_unfold asm s p h.pats h.msks h.idx h.lt]
  have hpl := pmOf_length asm p
  have hpos := h.pos_le
  have hrl : (V.drop pos).length = V.length - pos := by simp
  have hnu : ∀ x : Nat × IoKind, nextUpset T V D = x ↔ D.head?.getD (pos + (V.drop pos).length, T) = x := by
    intro x
    rw [hrl, show pos + (V.length - pos) = V.length by omega]
    rfl
  rcases xattempt T base D (pmOf asm p) [] s.bytes _ pos h.rep with ⟨j, b', a1, a2, a3, a4, a5, a6, a7⟩ | ⟨b', a1, a2, a3, a4, a5⟩ | ⟨j, k, b', a1, a2, a3, a4, a5, a6, a7⟩
  · -- mismatch
    rw [a4]
    simp only [List.nil_append]
    rw [matchTake_iff asm _ p h.lt j a2 a3, bits_drop, agrees_drop] at a7
    have hno : ¬ Occurs (bits asm) (bits V) (8 * pos + p) := fun ho => a7 (agrees_of_occurs ho)
    have hnag : ∀ n k, nextUpset T V D = (n, k) → ¬ Agrees (bits asm) (bits V) (8 * n) (8 * pos + p) := by
      intro n k hk ha
      rw [hnu] at hk
      have := xrep_next a5 (n := n) (k := k) (by
        rw [List.length_drop, show pos + j + ((V.drop pos).length - j) = pos + (V.drop pos).length by omega]; exact hk)
      exact a7 (agrees_mono (by omega) ha)
    have hcache := h.cache
    have hlift : ∀ {s1 : State} {pos1 p1 : Nat}, 8 * pos1 + p1 = 8 * pos + p + 1 → pos ≤ pos1 → XAt asm len T V base D s1 pos1 p1 →
        9 * (V.length - pos1) + (8 - p1) < n →
        (∃ j q s', q < 8 ∧ FirstAt (bits asm) (bits V) (8 * pos + p) (8 * j + q) ∧ pos ≤ j ∧
          scan s1 = .ret (.ok (some ⟨base + j + asm.length + 1, BitVec.ofNat 8 ((8 - q) % 8)⟩), s') ∧
          XAt asm len T V base D s' (j + asm.length) q ∧ s'.bytes.cache.length = (if q = 0 then 0 else 1)) ∨
        (∃ s' x n k, nextUpset T V D = (n, k) ∧ pos ≤ n ∧ FirstCandidate (bits asm) (bits V) (8 * n) (8 * pos + p) x ∧
          8 * n < x + 8 * asm.length ∧ scan s1 = .ret (if k = .unexpectedEof then .ok none else .error (.io k), s') ∧
          XAt asm len T V base D.tail s' n (x % 8)) := by
      intro s1 pos1 p1 hb hp1 hat hlt
      rcases ih _ hlt s1 pos1 p1 rfl hat with ⟨k, q, s', b1, b2, b0, b3, b4, b5⟩ | ⟨s', x, k, kk, b0, b1, b2, b3, b4, b5⟩
      · left
        refine ⟨k, q, s', b1, firstAt_skip (b := 8 * pos1 + p1) (by omega) ?_ b2, by omega, b3, b4, b5⟩
        intro i h1 h2
        have : i = 8 * pos + p := by omega
        subst this; exact hno
      · right
        refine ⟨s', x, k, kk, b0, by omega, ⟨by have := b2.1; omega, b2.2.1, ?_⟩, b3, b4, b5⟩
        intro i h1 h2
        by_cases h8 : i = 8 * pos + p
        · subst h8; exact hnag k kk b0
        · exact b2.2.2 i (by omega) h2
    by_cases h7 : p + 1 = 8
    · rw [if_pos h7]
      obtain ⟨x, xs, hx⟩ : ∃ x xs, V.drop pos = x :: xs := by
        cases hd : V.drop pos with
        | nil => rw [hd] at a3; simp at a3; omega
        | cons x xs => exact ⟨x, xs, rfl⟩
      rw [hx] at a3 a5 hrl ⊢
      have hxs : V.drop (pos + 1) = xs := by rw [← List.drop_drop, hx]; rfl
      obtain ⟨j, rfl⟩ : ∃ i, j = i + 1 := ⟨j - 1, by omega⟩
      simp only [List.length_cons] at a3 hrl
      have e : ((List.take (j + 1) (x :: xs)).reverse.take ((List.take (j + 1) (x :: xs)).length - 1)) = (xs.take j).reverse := by
        simp only [List.take_succ_cons, List.reverse_cons, List.length_cons, Nat.add_sub_cancel]
        rw [List.take_append_of_le_length (by simp), List.take_of_length_le (by simp)]
      rw [e]
      have hlt : (xs.take j).length = j := by simp; omega
      have hrep : XRep T base D (b'.push (xs.take j).reverse) xs (pos + 1) := by
        have := xpush (T := T) (base := base) (D := D) (b := b') (rem := xs.drop j) (w := xs.take j) (pos := pos + 1) (by
          rw [hlt]; simpa [Nat.add_assoc, Nat.add_comm 1] using a5)
        rwa [List.take_append_drop] at this
      have hat : XAt asm len T V base D { s with patternIdx := 0, bytes := b'.push (xs.take j).reverse } (pos + 1) 0 :=
        { rep := by rw [hxs]; exact hrep, pats := h.pats, msks := h.msks, idx := rfl, lt := by omega, size := h.size, pos_le := by omega,
          cache := by
            simp only [push_cache, List.length_reverse, hlt, a6]
            rw [if_neg (by omega)] at hcache hpl
            simp only [if_true]
            omega }
      exact hlift (by omega) (by omega) hat (by omega)
    · rw [if_neg h7]
      have hlt : ((V.drop pos).take j).length = j := by simp at a3 ⊢; omega
      have hrep : XRep T base D (b'.push ((V.drop pos).take j).reverse) (V.drop pos) pos := by
        have := xpush (T := T) (base := base) (D := D) (b := b') (rem := (V.drop pos).drop j) (w := (V.drop pos).take j) (pos := pos) (by rw [hlt]; exact a5)
        rwa [List.take_append_drop] at this
      have hat : XAt asm len T V base D { s with patternIdx := p + 1, bytes := b'.push ((V.drop pos).take j).reverse } pos (p + 1) :=
        { rep := hrep, pats := h.pats, msks := h.msks, idx := rfl, lt := by have := h.lt; omega, size := h.size, pos_le := hpos,
          cache := by
            simp only [push_cache, List.length_reverse, hlt, a6]
            rw [if_neg (by omega)]
            split at hcache <;> split at hpl <;> omega }
      exact hlift (by omega) (by omega) hat (by have := h.lt; omega)
  · -- found
    rw [a3]
    simp only [List.nil_append]
    obtain ⟨r1, r2, r3, r4⟩ := a4
    have hcache := h.cache
    have hc0 : b'.cache = [] := by
      apply List.length_eq_zero_iff.1
      split at hcache <;> split at hpl <;> omega
    have hle : ¬ b'.numRead < b'.cache.length := by omega
    rw [if_neg hle]
    rw [match_iff asm _ hasm p h.lt, occurs_drop] at a2
    have hfirst : FirstAt (bits asm) (bits V) (8 * pos + p) (8 * pos + p) := ⟨by omega, a2, by omega⟩
    simp only [hc0, List.reverse_nil, List.nil_append, List.length_nil, Nat.add_zero] at r1 r2 r3
    left
    by_cases h0 : p = 0
    · subst h0
      simp only [if_true, Nat.add_zero] at hpl
      refine ⟨pos, 0, { s with bytes := b' }, by omega, hfirst, by omega, ?_, ?_, by simp [hc0]⟩
      · simp only [Bytes.offset, r2, hc0, hpl]
        simp; omega
      · rw [hpl] at r1 r2 r3
        refine { rep := ⟨?_, ?_, ?_, r4⟩, pats := h.pats, msks := h.msks, idx := h.idx, lt := h.lt, size := h.size, cache := by simp [hc0], pos_le := by omega }
        · simp only [hc0, List.reverse_nil, List.nil_append, r1, List.drop_drop]
        · simp [hc0, r2]
        · simpa [hc0] using r3
    · rw [if_neg h0] at hpl
      rw [hpl] at a1 r1 r2 r3
      have hb0 := bit_zero_iff p h.lt
      refine ⟨pos, p, { s with bytes := b'.push [(V.drop pos)[asm.length]] }, h.lt, hfirst, by omega, ?_, ?_, by simp [Bytes.push, hc0, h0]⟩
      · rw [if_neg (by simp [hb0, h0]), if_pos (by omega), hpl, getLast_take (by omega)]
        simp only [Bytes.offset, r2, hc0]
        simp; omega
      · refine { rep := ⟨?_, ?_, ?_, r4⟩, pats := h.pats, msks := h.msks, idx := h.idx, lt := h.lt, size := h.size, cache := by simp [Bytes.push, hc0, h0], pos_le := by omega }
        · simp only [Bytes.push, hc0, List.nil_append, List.reverse_singleton, List.singleton_append, r1]
          have hd := List.drop_eq_getElem_cons (l := V.drop pos) (i := asm.length) (by omega)
          rw [List.drop_drop (i := asm.length)] at hd
          exact hd.symm
        · simp [Bytes.push, r2, hc0]; omega
        · simp only [Bytes.push, hc0, List.nil_append, List.length_singleton]
          rw [← r3]; rfl
  · -- something goes wrong
    rw [a4]
    right
    rw [matchTake_iff asm _ p h.lt j (by omega) a2, bits_drop, agrees_drop] at a5
    refine ⟨{ s with bytes := b' }, 8 * pos + p, pos + j, k, (hnu _).2 a3, by omega, ⟨by omega, by rwa [Nat.mul_add], by omega⟩, ?_, ?_, ?_⟩
    · have := h.lt
      split at hpl <;> omega
    · simp only
      split <;> rfl
    · have e : (8 * pos + p) % 8 = p := by have := h.lt; omega
      rw [e]
      exact { rep := by rw [← List.drop_drop]; exact a6, pats := h.pats, msks := h.msks, idx := h.idx, lt := h.lt, size := h.size, cache := by simp [a7], pos_le := by omega }

theorem uninterrupted_sub {D : List (Nat × IoKind)} : ∀ u ∈ uninterrupted D, u ∈ D := fun _ hu => (List.dropWhile_sublist _).subset hu

theorem failure_bounds (es : List Ev) (a f : Nat) (T k : IoKind)
    (h : (uninterrupted (upsetsFrom a es)).head?.getD (a + (evBytes es).length, T) = (f, k)) : a ≤ f ∧ f ≤ a + (evBytes es).length :=
  getD_bounds (fun u hu => upsets_bounds es a u (uninterrupted_sub u hu)) (by omega) h

/-- `read_exact` on any reader. -/
theorem xreadGo (t : Tail) (es : List Ev) : ∀ (n : Nat) (acc : List U8) (a f : Nat) (k : IoKind),
    (uninterrupted (upsetsFrom a es)).head?.getD (a + (evBytes es).length, everAfter t) = (f, k) →
    (a + n ≤ f → ∃ es', Reader.readExactGo t es n acc = (none, acc ++ (evBytes es).take n, es') ∧ evBytes es' = (evBytes es).drop n ∧
      upsetsFrom (a + n) es' = (upsetsFrom a es).filter fun u => a + n ≤ u.1) ∧
    (f < a + n → ∃ es', Reader.readExactGo t es n acc = (some k, acc ++ (evBytes es).take (f - a), es') ∧ evBytes es' = (evBytes es).drop (f - a) ∧
      upsetsFrom f es' = (uninterrupted (upsetsFrom a es)).tail) := by
  induction es with
  | nil =>
    intro n acc a f k h
    simp only [upsetsFrom, uninterrupted, List.dropWhile_nil, List.head?_nil, Option.getD_none, evBytes_nil, List.length_nil, Nat.add_zero,
      Prod.mk.injEq] at h
    obtain ⟨rfl, rfl⟩ := h
    refine ⟨fun h => ?_, fun h => ?_⟩
    · obtain rfl : n = 0 := by omega
      exact ⟨[], by simp [Reader.readExactGo], rfl, rfl⟩
    · obtain ⟨n, rfl⟩ : ∃ m, n = m + 1 := ⟨n - 1, by omega⟩
      refine ⟨[], ?_, by simp, rfl⟩
      cases t <;> simp [Reader.readExactGo, everAfter]
  | cons e es ih =>
    intro n acc a f k h
    have hfb := failure_bounds _ _ _ _ _ h
    match n with
    | 0 =>
      refine ⟨fun _ => ⟨e :: es, by rw [readExactGo_zero]; simp, rfl, ?_⟩, fun _ => by omega⟩
      symm
      apply List.filter_eq_self.2
      intro u hu
      simpa using (upsets_bounds _ _ u hu).1
    | n + 1 =>
      cases e with
      | data c =>
        by_cases hc : c = []
        · subst hc
          simp only [upsetsFrom, if_true, uninterrupted] at h ⊢
          rw [List.dropWhile_cons_of_neg (by simp)] at h ⊢
          simp only [List.head?_cons, Option.getD_some, Prod.mk.injEq] at h
          obtain ⟨rfl, rfl⟩ := h
          refine ⟨fun _ => by omega, fun _ => ⟨es, by simp [Reader.readExactGo], by simp [Ev.bytes], rfl⟩⟩
        · simp only [upsetsFrom, if_neg hc, evBytes_cons, Ev.bytes, List.length_append] at h ⊢
          rw [← Nat.add_assoc] at h
          have hfb' := failure_bounds _ _ _ _ _ h
          have hpc : 0 < c.length := List.length_pos_iff.2 hc
          rw [Reader.readExactGo, if_neg hc]
          by_cases hl : c.length ≤ n + 1
          · rw [if_pos hl]
            obtain ⟨i1, i2⟩ := ih (n + 1 - c.length) (acc ++ c) (a + c.length) f k h
            rw [show a + c.length + (n + 1 - c.length) = a + (n + 1) by omega] at i1 i2
            refine ⟨fun hf => ?_, fun hf => ?_⟩
            · obtain ⟨es', e1, e2, e3⟩ := i1 hf
              refine ⟨es', ?_, ?_, e3⟩
              · rw [e1, List.take_append, List.take_of_length_le hl, List.append_assoc]
              · rw [e2, List.drop_append, List.drop_of_length_le hl, List.nil_append]
            · obtain ⟨es', e1, e2, e3⟩ := i2 hf
              refine ⟨es', ?_, ?_, e3⟩
              · rw [e1, List.take_append, List.take_of_length_le (l := c) (by omega), List.append_assoc, Nat.sub_sub]
              · rw [e2, List.drop_append, List.drop_of_length_le (l := c) (by omega), List.nil_append, Nat.sub_sub]
          · rw [if_neg hl]
            refine ⟨fun hf => ⟨.data (c.drop (n + 1)) :: es, ?_, ?_, ?_⟩, fun hf => by omega⟩
            · rw [List.take_append_of_le_length (by omega)]
            · simp only [evBytes_cons, Ev.bytes]
              rw [List.drop_append_of_le_length (by omega)]
            · have hne : c.drop (n + 1) ≠ [] := by
                intro h0
                have := congrArg List.length h0
                simp only [List.length_drop, List.length_nil] at this
                omega
              simp only [upsetsFrom, if_neg hne, List.length_drop]
              rw [show a + (n + 1) + (c.length - (n + 1)) = a + c.length by omega]
              symm
              apply List.filter_eq_self.2
              intro u hu
              have := (upsets_bounds _ _ u hu).1
              simp only [decide_eq_true_eq]; omega
      | err kk =>
        simp only [upsetsFrom, evBytes_cons, Ev.bytes, List.nil_append, uninterrupted] at h ⊢
        by_cases hk : kk = .interrupted
        · rw [List.dropWhile_cons_of_pos (by simp [hk])] at h ⊢
          rw [Reader.readExactGo, if_pos hk]
          obtain ⟨i1, i2⟩ := ih (n + 1) acc a f k h
          refine ⟨fun hf => ?_, i2⟩
          obtain ⟨es', e1, e2, e3⟩ := i1 hf
          refine ⟨es', e1, e2, ?_⟩
          rw [e3, List.filter_cons_of_neg (by simp)]
        · rw [List.dropWhile_cons_of_neg (by simp [hk])] at h ⊢
          simp only [List.head?_cons, Option.getD_some, Prod.mk.injEq] at h
          obtain ⟨rfl, rfl⟩ := h
          refine ⟨fun _ => by omega, fun _ => ⟨es, by simp [Reader.readExactGo, hk], by simp, rfl⟩⟩

theorem xreadExact (r : Reader) (n a f : Nat) (k : IoKind)
    (h : (uninterrupted (upsetsFrom a r.script)).head?.getD (a + (evBytes r.script).length, everAfter r.tail) = (f, k)) :
    (a + n ≤ f → ∃ es', r.readExact n = (none, (evBytes r.script).take n, ⟨es', r.tail⟩) ∧ evBytes es' = (evBytes r.script).drop n ∧
      upsetsFrom (a + n) es' = (upsetsFrom a r.script).filter fun u => a + n ≤ u.1) ∧
    (f < a + n → ∃ es', r.readExact n = (some k, (evBytes r.script).take (f - a), ⟨es', r.tail⟩) ∧ evBytes es' = (evBytes r.script).drop (f - a) ∧
      upsetsFrom f es' = (uninterrupted (upsetsFrom a r.script)).tail) := by
  obtain ⟨h1, h2⟩ := xreadGo r.tail r.script n [] a f k h
  refine ⟨fun hf => ?_, fun hf => ?_⟩
  · obtain ⟨es', e1, e2, e3⟩ := h1 hf
    exact ⟨es', by simp [Reader.readExact, e1], e2, e3⟩
  · obtain ⟨es', e1, e2, e3⟩ := h2 hf
    exact ⟨es', by simp [Reader.readExact, e1], e2, e3⟩

theorem upsets_rebase (es : List Ev) (f c : Nat) : upsetsFrom c es = (upsetsFrom f es).map fun u => (u.1 - f + c, u.2) := by
  have h1 := upsets_shift es 0 c
  have h2 := upsets_shift es 0 f
  rw [Nat.zero_add] at h1 h2
  rw [h1, h2, List.map_map]
  apply List.map_congr_left
  intro u _
  simp

/-- Reading the block. -/
theorem xblock (asm : List U8) (len : Nat) (T : IoKind) (V : List U8) (base : Nat) (D : List (Nat × IoKind)) (s : State) (pos q : Nat)
    (h : XAt asm len T V base D s pos q) (hc : s.bytes.cache.length = if q = 0 then 0 else 1) (f : Nat) (k : IoKind)
    (hf : nextUpset T V (uninterrupted D) = (f, k)) :
    (8 * pos + q + 8 * len ≤ 8 * f → ∃ data s', block s = (.ok data, s') ∧ bits data = ((bits V).drop (8 * pos + q)).take (8 * len) ∧
      XAt asm len T V base (D.filter fun u => 8 * pos + q + 8 * len ≤ 8 * u.1) s' (pos + len) q) ∧
    (8 * f < 8 * pos + q + 8 * len →
      (q = 0 → k = .unexpectedEof → ∃ s', block s = (.ok ((V.take f).drop pos ++ List.replicate (len - (f - pos)) 0#8), s') ∧
        XAt asm len T (V.drop f) (base + pos) ((uninterrupted D).tail.map fun u => (u.1 - f, u.2)) s' 0 0) ∧
      ((k = .unexpectedEof → q ≠ 0) → ∃ s' held rest, block s = (.error (.io k), s') ∧ V.drop pos = held ++ rest ∧ held.length = (if q = 0 then 0 else 1) ∧
        XAt asm len T (held ++ V.drop f) (base + pos) ((uninterrupted D).tail.map fun u => (u.1 - f + held.length, u.2)) s' 0 q)) := by
  obtain ⟨r1, r2, r3, r4⟩ := h.rep
  have hlt := h.lt
  have hpos := h.pos_le
  have hlen := congrArg List.length r1
  simp only [List.length_append, List.length_reverse, List.length_drop] at hlen
  have hf' : (uninterrupted (upsetsFrom (pos + s.bytes.cache.length) s.bytes.reader.script)).head?.getD
      (pos + s.bytes.cache.length + (evBytes s.bytes.reader.script).length, everAfter s.bytes.reader.tail) = (f, k) := by
    rw [r3, r4, show pos + s.bytes.cache.length + (evBytes s.bytes.reader.script).length = V.length by omega]
    exact hf
  have hfb := failure_bounds _ _ _ _ _ hf'
  obtain ⟨x1, x2⟩ := xreadExact s.bytes.reader len (pos + s.bytes.cache.length) f k hf'
  rw [r3] at x1 x2
  by_cases h0 : q = 0
  · subst h0
    simp only [if_true] at hc
    have hc' := List.length_eq_zero_iff.1 hc
    simp only [hc', List.reverse_nil, List.nil_append, List.length_nil, Nat.add_zero] at r1 r2 r3 x1 x2 hfb
    rw [r1] at x1 x2
    refine ⟨fun hle => ?_, fun hgt => ⟨fun _ hk => ?_, fun hk => ?_⟩⟩
    · obtain ⟨es', e1, e2, e3⟩ := x1 (by omega)
      have hfl := fill_empty_ok hc' e1
      rw [← h.size] at hfl
      have hbl := block_aligned h.idx hfl
      rw [h.size, List.take_take, Nat.min_self] at hbl
      refine ⟨_, _, hbl, by simp [bits_take, bits_drop], ?_⟩
      refine { rep := ⟨by simp [e2], by simp [r2]; omega, ?_, r4⟩, pats := h.pats, msks := h.msks, idx := h.idx, lt := h.lt, size := rfl, cache := by simp, pos_le := by omega }
      simp only [List.length_nil, Nat.add_zero]
      rw [e3]
      apply List.filter_congr
      intro u _
      simp only [decide_eq_decide]; omega
    · subst hk
      obtain ⟨es', e1, e2, e3⟩ := x2 (by omega)
      have hfl := fill_empty_eof hc' e1
      rw [← h.size] at hfl
      have hbl := block_aligned h.idx hfl
      have hl : ((V.drop pos).take (f - pos)).length = f - pos := by simp; omega
      rw [h.size, hl, List.take_of_length_le (by simp; omega), ← List.drop_take] at hbl
      refine ⟨_, hbl, ?_⟩
      refine { rep := ⟨by simp [e2, show pos + (f - pos) = f by omega], by simp [r2], ?_, r4⟩, pats := h.pats, msks := h.msks, idx := h.idx, lt := h.lt, size := rfl, cache := by simp, pos_le := by omega }
      simp only [List.length_nil, Nat.add_zero]
      rw [upsets_rebase es' f 0, e3]
      rfl
    · obtain ⟨es', e1, e2, e3⟩ := x2 (by omega)
      obtain ⟨buf, hfl⟩ := fill_empty_err hc' (fun hk' => hk hk' rfl) e1
      rw [← h.size] at hfl
      refine ⟨_, [], V.drop pos, block_aligned_err h.idx hfl, rfl, rfl, ?_⟩
      refine { rep := ⟨by simp [e2, show pos + (f - pos) = f by omega], by simp [r2], ?_, r4⟩, pats := h.pats, msks := h.msks, idx := h.idx, lt := h.lt, size := h.size, cache := by simp, pos_le := by omega }
      simp only [List.length_nil, Nat.add_zero]
      rw [upsets_rebase es' f 0, e3]
      rfl
  · rw [if_neg h0] at hc
    obtain ⟨b, hb⟩ := List.length_eq_one_iff.1 hc
    simp only [hb, List.reverse_singleton, List.singleton_append, List.length_singleton] at r1 r2 r3 x1 x2 hfb hlen
    have hne : s.patternIdx ≠ 0 := by rw [h.idx]; exact h0
    refine ⟨fun hle => ?_, fun hgt => ⟨fun h00 => absurd h00 h0, fun hk => ?_⟩⟩
    · obtain ⟨es', e1, e2, e3⟩ := x1 (by omega)
      generalize evBytes s.bytes.reader.script = rr at r1 e1 e2 hfb hlen
      have hbuf : ∀ x, (leftShift q ((b :: rr).take (len + 1))).take len = x → bits x = ((bits (b :: rr)).drop q).take (8 * len) := by
        intro x hx
        subst hx
        rw [bits_take, bits_leftShift q hlt _ (by simp), bits_take, List.take_append_of_le_length (by simp; omega),
          List.drop_take, List.take_take, Nat.min_eq_left (by omega)]
      have hg : ((b :: rr).take (len + 1)).getLast?.getD 0#8 = (b :: rr)[len]'(by simp; omega) := getLast_take (by simp; omega)
      have hfl := fill_one_ok hb e1
      rw [← h.size] at hfl
      have hbl := block_shifted hne hfl
      rw [h.size, ← List.take_succ_cons, h.idx, hg] at hbl
      refine ⟨_, _, hbl, ?_, ?_⟩
      · rw [hbuf _ rfl, r1, bits_drop, List.drop_drop]
      refine { rep := ⟨?_, ?_, ?_, r4⟩, pats := h.pats, msks := h.msks, idx := by simp, lt := h.lt, size := by simp, cache := by simp [Bytes.push, h0], pos_le := by omega }
      · simp only [Bytes.push, List.nil_append, List.reverse_singleton, List.singleton_append]
        rw [← List.drop_drop, ← r1, List.drop_eq_getElem_cons (l := b :: rr) (i := len) (by simp; omega), e2]
        simp
      · simp only [r2, Bytes.push, List.nil_append, List.length_singleton]; omega
      · simp only [Bytes.push, List.nil_append, List.length_singleton]
        rw [show pos + len + 1 = pos + 1 + len by omega, e3]
        apply List.filter_congr
        intro u _
        simp only [decide_eq_decide]; omega
    · obtain ⟨es', e1, e2, e3⟩ := x2 (by omega)
      obtain ⟨buf, hfl⟩ := fill_one_err (by omega) hb e1
      rw [← h.size] at hfl
      refine ⟨_, [b], evBytes s.bytes.reader.script, block_shifted_err hne hfl, r1.symm, by simp [h0], ?_⟩
      have hdrop : evBytes es' = V.drop f := by
        rw [e2]
        have := congrArg (List.drop (f - pos)) r1
        rw [List.drop_drop, show pos + (f - pos) = f by omega, show f - pos = f - (pos + 1) + 1 by omega, List.drop_succ_cons] at this
        exact this
      refine { rep := ⟨by simp [hdrop], by simp [r2], ?_, r4⟩, pats := h.pats, msks := h.msks, idx := h.idx, lt := h.lt, size := h.size, cache := by simp [h0], pos_le := by omega }
      simp only [List.length_singleton, Nat.zero_add]
      rw [upsets_rebase es' f 1, e3]

/-- One call. -/
theorem xitem (asm : List U8) (hasm : asm ≠ []) (len : Nat) (T : IoKind) (V : List U8) (base : Nat) (D : List (Nat × IoKind)) (s : State) (pos p last : Nat)
    (h : XAt asm len T V base D s pos p) (hlast : last ≤ base + pos + 1) :
    ∃ res s' V' base' D' pos' p' last', next ⟨s, last⟩ = .ret (res, ⟨s', last'⟩) ∧ XAt asm len T V' base' D' s' pos' p' ∧ last' ≤ base' + pos' + 1 ∧
      ∀ rs, Heard asm len T V' base' D' (8 * pos' + p') last' rs → Heard asm len T V base D (8 * pos + p) last (res :: rs) := by
  rcases xscan_spec asm hasm len T V base D _ s pos p rfl h with ⟨j, q, s', a1, hf, hj, a3, a4, a5⟩ | ⟨s', x, n, k, a0, a1, a2, a3, a4, a5⟩
  · have hi8 : (8 * j + q) / 8 = j := by omega
    have him : (8 * j + q) % 8 = q := by omega
    have hlast' : ¬ (last ≠ 0 ∧ base + j + asm.length + 1 < last) := by omega
    have hup : 8 * j + q + 8 * asm.length ≤ 8 * (nextUpset T V D).1 := by
      have hp := a4.pos_le
      obtain ⟨k1, k2⟩ := xrep_next a4.rep (n := (nextUpset T V D).1) (k := (nextUpset T V D).2) (by
        rw [List.length_drop, show j + asm.length + (V.length - (j + asm.length)) = V.length by omega]; rfl)
      rw [a5] at k1
      split at k1 <;> omega
    obtain ⟨b1, b2⟩ := xblock asm len T V base D s' _ q a4 a5 (nextUpset T V (uninterrupted D)).1 (nextUpset T V (uninterrupted D)).2 rfl
    by_cases hle : 8 * (j + asm.length) + q + 8 * len ≤ 8 * (nextUpset T V (uninterrupted D)).1
    · obtain ⟨data, s'', c1, c2, c3⟩ := b1 hle
      refine ⟨_, s'', V, base, _, _, _, _, by simp only [next, a3, c1]; rw [if_neg hlast'], c3, by omega, ?_⟩
      intro rs hrs
      have e1 : 8 * j + q + 8 * asm.length = 8 * (j + asm.length) + q := by omega
      have := Heard.block (len := len) (prev := last) hf hup (by omega) (data := data) (rs := rs) (base := base) (by rw [c2, e1]) (by
        rw [hi8, e1]
        have e2 : 8 * (j + asm.length + len) + q = 8 * (j + asm.length) + q + 8 * len := by omega
        rw [← e2] at hrs ⊢
        rw [e2] at hrs ⊢
        exact hrs)
      rwa [hi8, him] at this
    · obtain ⟨b3, b4⟩ := b2 (by omega)
      by_cases hk : (nextUpset T V (uninterrupted D)).2 = .unexpectedEof ∧ q = 0
      · obtain ⟨hk, rfl⟩ := hk
        obtain ⟨s'', c1, c2⟩ := b3 rfl hk
        refine ⟨_, s'', _, _, _, _, _, _, by simp only [next, a3, c1]; rw [if_neg hlast'], c2, by omega, ?_⟩
        intro rs hrs
        have := Heard.cut (prev := last) (T := T) (V := V) (D := D) (n := (nextUpset T V (uninterrupted D)).1) (len := len) (base := base) (rs := rs) hf hup
          (by rw [← hk]) (by omega) (by omega) (by rw [hi8]; simpa [Nat.add_assoc] using hrs)
        rw [hi8] at this
        exact this
      · obtain ⟨s'', held, rest, c1, c2, c3, c4⟩ := b4 (fun h1 h2 => hk ⟨h1, h2⟩)
        refine ⟨_, s'', _, _, _, _, _, _, by simp only [next, a3, c1]; rw [if_neg hlast'], c4, by omega, ?_⟩
        intro rs hrs
        exact Heard.failed (prev := last) (T := T) (V := V) (D := D) (n := (nextUpset T V (uninterrupted D)).1) (len := len) (base := base) (rs := rs)
          (held := held) (rs' := rest) hf hup rfl (by omega) (by rw [him]; exact fun h1 h2 => hk ⟨h1, h2⟩) (by rw [hi8]; exact c2) (by rw [him]; exact c3)
          (by rw [hi8, him]; simpa [Nat.add_assoc] using hrs)
  · refine ⟨if k = .unexpectedEof then none else some (.error (.io k)), s', V, base, D.tail, n, x % 8, last, ?_, a5, by omega, fun rs hrs => .upset a0 a2 a3 hrs⟩
    unfold next
    simp only
    rw [a4]
    by_cases hk : k = .unexpectedEof <;> simp [hk]

theorem xstart (r : Reader) (asm : List U8) (len : Nat) :
    XAt asm len (everAfter r.tail) (evBytes r.script) 0 (upsetsFrom 0 r.script) (iter r asm len).scanner 0 0 :=
  { rep := ⟨rfl, rfl, rfl, rfl⟩, pats := rfl, msks := rfl, idx := rfl, lt := by omega, size := rfl,
    cache := by simp [iter, new, State.withAsm, Bytes.new], pos_le := by omega }

end Sync
end Ccsds
