import Verif.Model.Sync
import Verif.Spec.Sync
import Verif.Proofs.Bits
import Verif.Proofs.Reader
/-! Lemmas about the synchronizer. -/
namespace Ccsds
open Spec

theorem byteBits_shift (a b : U8) (k : Nat) (hk : k < 8) :
    byteBits (a <<< k ||| b >>> (8 - k)) = (byteBits a).drop k ++ (byteBits b).take k := by
  have : k = 0 ∨ k = 1 ∨ k = 2 ∨ k = 3 ∨ k = 4 ∨ k = 5 ∨ k = 6 ∨ k = 7 := by omega
  rcases this with h | h | h | h | h | h | h | h <;> subst h <;>
    simp [byteBits, BitVec.getMsbD_or, BitVec.getMsbD_shiftLeft, BitVec.getMsbD_ushiftRight]

theorem byteBits_shl (a : U8) (k : Nat) (hk : k < 8) :
    byteBits (a <<< k) = (byteBits a).drop k ++ List.replicate k false := by
  have : k = 0 ∨ k = 1 ∨ k = 2 ∨ k = 3 ∨ k = 4 ∨ k = 5 ∨ k = 6 ∨ k = 7 := by omega
  rcases this with h | h | h | h | h | h | h | h <;> subst h <;>
    simp [byteBits, BitVec.getMsbD_shiftLeft, List.replicate]

theorem leftShift_length (k : Nat) (x : List U8) : (Sync.leftShift k x).length = x.length := by
  fun_induction Sync.leftShift k x <;> simp_all

theorem bits_leftShift (k : Nat) (hk : k < 8) (x : List U8) (hx : x ≠ []) :
    bits (Sync.leftShift k x) = (bits x).drop k ++ List.replicate k false := by
  fun_induction Sync.leftShift k x with
  | case1 => exact absurd rfl hx
  | case2 a => simp [byteBits_shl a k hk]
  | case3 a b r ih =>
    rw [bits_cons, ih (by simp)]
    have e : byteBits (if k ≠ 0 then a <<< k ||| b >>> (8 - k) else a <<< k) = (byteBits a).drop k ++ (byteBits b).take k := by
      by_cases h : k = 0
      · subst h; simp
      · rw [if_pos h, byteBits_shift a b k hk]
    rw [e, bits_cons a, bits_cons b, List.drop_append_of_le_length (by simp; omega),
      List.drop_append_of_le_length (l₁ := byteBits a) (by simp; omega)]
    simp only [List.append_assoc]
    rw [← List.append_assoc ((byteBits b).take k), List.take_append_drop]

/-- The masked bytes of a pattern all match. -/
def MatchPM : List (U8 × U8) → List U8 → Prop
  | [], _ => True
  | _ :: _, [] => False
  | (p, m) :: pm, b :: bs => b &&& m = p ∧ MatchPM pm bs

theorem byteBits_and (a b : U8) : byteBits (a &&& b) = List.zipWith (· && ·) (byteBits a) (byteBits b) := by
  simp [byteBits, BitVec.getMsbD_and]

theorem matchPM_iff (pat mask rem : List U8) (hl : pat.length = mask.length) :
    MatchPM (pat.zip mask) rem ↔ pat.length ≤ rem.length ∧ List.zipWith (· && ·) ((bits rem).take (8 * pat.length)) (bits mask) = bits pat := by
  induction pat generalizing mask rem with
  | nil => cases mask <;> simp_all [MatchPM]
  | cons p pat ih =>
    match mask, hl with
    | m :: mask, hl =>
      match rem with
      | [] => simp [MatchPM]
      | b :: rem =>
        have hl' : pat.length = mask.length := by simpa using hl
        simp only [List.zip_cons_cons, MatchPM, ih mask rem hl', bits_cons, List.length_cons]
        have e : 8 * (pat.length + 1) = (byteBits b).length + 8 * pat.length := by simp; omega
        rw [e, List.take_length_add_append, List.zipWith_append (by simp), ← byteBits_and]
        constructor
        · rintro ⟨h1, h2, h3⟩; exact ⟨by omega, by rw [h1, h3]⟩
        · rintro ⟨h1, h2⟩
          have := List.append_inj h2 (by simp)
          exact ⟨byteBits_inj this.1, by omega, this.2⟩

theorem zipWith_false (x : List Bool) (n : Nat) (h : x.length = n) : List.zipWith (· && ·) x (List.replicate n false) = List.replicate n false := by
  subst h
  induction x with
  | nil => rfl
  | cons a x ih => simp [List.replicate_succ, ih]

theorem zipWith_true (x : List Bool) (n : Nat) (h : x.length = n) : List.zipWith (· && ·) x (List.replicate n true) = x := by
  subst h
  induction x with
  | nil => rfl
  | cons a x ih => simp [List.replicate_succ, ih]

theorem bits_zero : byteBits 0#8 = List.replicate 8 false := by decide
theorem bits_ff (n : Nat) : bits (List.replicate n 0xff#8) = List.replicate (8 * n) true := by
  induction n with
  | zero => rfl
  | succ n ih =>
    rw [List.replicate_succ, bits_cons, ih, show byteBits 0xff#8 = List.replicate 8 true by decide, List.replicate_append_replicate]
    congr 1; omega

theorem bits_drop (l : List U8) (n : Nat) : bits (l.drop n) = (bits l).drop (8 * n) := by
  induction n generalizing l with
  | zero => simp
  | succ n ih =>
    cases l with
    | nil => simp
    | cons a l =>
      rw [List.drop_succ_cons, ih, bits_cons, show 8 * (n + 1) = (byteBits a).length + 8 * n by simp; omega,
        List.drop_length_add_append]

theorem bits_take (l : List U8) (n : Nat) : bits (l.take n) = (bits l).take (8 * n) := by
  induction n generalizing l with
  | zero => simp
  | succ n ih =>
    cases l with
    | nil => simp
    | cons a l =>
      rw [List.take_succ_cons, bits_cons, ih, bits_cons, show 8 * (n + 1) = (byteBits a).length + 8 * n by simp; omega,
        List.take_length_add_append]

namespace Sync

/-- The `p`-th pattern with its mask. -/
def pmOf (asm : List U8) (p : Nat) : List (U8 × U8) :=
  if p = 0 then asm.zip (List.replicate asm.length 0xff#8)
  else (leftShift (8 - p) (0#8 :: asm)).zip (leftShift (8 - p) (0#8 :: List.replicate asm.length 0xff#8))

theorem patterns_get (asm : List U8) (p : Nat) (hp : p < 8) :
    (patterns asm)[p]? = some (if p = 0 then asm else leftShift (8 - p) (0#8 :: asm)) := by
  have : p = 0 ∨ p = 1 ∨ p = 2 ∨ p = 3 ∨ p = 4 ∨ p = 5 ∨ p = 6 ∨ p = 7 := by omega
  rcases this with h | h | h | h | h | h | h | h <;> subst h <;> rfl

theorem masks_get (asm : List U8) (p : Nat) (hp : p < 8) :
    (masks asm)[p]? = some (if p = 0 then List.replicate asm.length 0xff#8 else leftShift (8 - p) (0#8 :: List.replicate asm.length 0xff#8)) := by
  have : p = 0 ∨ p = 1 ∨ p = 2 ∨ p = 3 ∨ p = 4 ∨ p = 5 ∨ p = 6 ∨ p = 7 := by omega
  rcases this with h | h | h | h | h | h | h | h <;> subst h <;> rfl

theorem zip_get (asm : List U8) (p : Nat) :
    (if p = 0 then asm else leftShift (8 - p) (0#8 :: asm)).zip (if p = 0 then List.replicate asm.length 0xff#8 else leftShift (8 - p) (0#8 :: List.replicate asm.length 0xff#8)) = pmOf asm p := by
  unfold pmOf; split <;> rfl

theorem pmOf_length (asm : List U8) (p : Nat) : (pmOf asm p).length = asm.length + (if p = 0 then 0 else 1) := by
  unfold pmOf
  split
  · simp
  · simp [leftShift_length]

theorem take_drop_eq_prefix (m s : List Bool) (h : (s.take m.length) = m) : m <+: s := ⟨s.drop m.length, by
  conv => lhs; lhs; rw [← h]
  rw [List.take_append_drop]⟩

/-- A masked pattern matches iff the marker occurs at that bit offset. -/
theorem match_iff (asm rem : List U8) (hasm : asm ≠ []) (p : Nat) (hp : p < 8) :
    MatchPM (pmOf asm p) rem ↔ Occurs (bits asm) (bits rem) p := by
  unfold Occurs
  by_cases h0 : p = 0
  · subst h0
    simp only [pmOf, if_true, List.drop_zero]
    rw [matchPM_iff _ _ _ (by simp), bits_ff]
    constructor
    · rintro ⟨h1, h2⟩
      rw [zipWith_true _ _ (by simp; omega)] at h2
      exact take_drop_eq_prefix _ _ (by rw [bits_length]; exact h2)
    · intro h
      have hl := h.length_le
      simp only [bits_length] at hl
      refine ⟨by omega, ?_⟩
      rw [zipWith_true _ _ (by simp; omega)]
      have := List.prefix_iff_eq_take.1 h
      rw [bits_length] at this
      exact this.symm
  · simp only [pmOf, if_neg h0]
    rw [matchPM_iff _ _ _ (by simp [leftShift_length]), leftShift_length,
      bits_leftShift _ (by omega) _ (by simp), bits_leftShift _ (by omega) _ (by simp), bits_cons, bits_cons, bits_zero, bits_ff]
    rw [List.drop_append_of_le_length (by simp), List.drop_append_of_le_length (by simp), List.drop_replicate,
      show 8 - (8 - p) = p by omega]
    simp only [List.length_cons]
    have key : asm.length + 1 ≤ rem.length → (List.zipWith (· && ·) ((bits rem).take (8 * (asm.length + 1)))
        (List.replicate p false ++ List.replicate (8 * asm.length) true ++ List.replicate (8 - p) false) =
          List.replicate p false ++ bits asm ++ List.replicate (8 - p) false ↔ ((bits rem).drop p).take (8 * asm.length) = bits asm) := by
      intro hle
      have e : (bits rem).take (8 * (asm.length + 1)) = (bits rem).take p ++ ((bits rem).drop p).take (8 * asm.length) ++ ((bits rem).drop (p + 8 * asm.length)).take (8 - p) := by
        rw [show 8 * (asm.length + 1) = (p + 8 * asm.length) + (8 - p) by omega, List.take_add, List.take_add]
      rw [e, List.zipWith_append (by simp; omega), List.zipWith_append (by simp; omega),
        zipWith_false _ _ (by simp; omega), zipWith_true _ _ (by simp; omega), zipWith_false _ _ (by simp; omega)]
      constructor
      · intro h
        have := (List.append_inj h (by simp; omega)).1
        exact (List.append_inj this (by simp)).2
      · intro h; rw [h]
    constructor
    · rintro ⟨h1, h2⟩
      apply take_drop_eq_prefix
      rw [bits_length]
      exact (key h1).1 h2
    · intro h
      have hl := h.length_le
      have := List.length_pos_iff.2 hasm
      simp only [bits_length, List.length_drop] at hl
      have hle : asm.length + 1 ≤ rem.length := by omega
      refine ⟨hle, (key hle).2 ?_⟩
      have := List.prefix_iff_eq_take.1 h
      rw [bits_length] at this
      exact this.symm

/-- The bytes still to come are `rem`, and the first of them is at offset `pos` of the stream. -/
def Rep (b : Bytes) (rem : List U8) (pos : Nat) : Prop :=
  ∃ rr, Smooth b.reader rr ∧ b.cache.reverse ++ rr = rem ∧ b.numRead = pos + b.cache.length

theorem read_one_nil {r : Reader} (h : Smooth r []) : ∃ r', r.read 1 = (.ok [], r') ∧ Smooth r' [] := by
  obtain ⟨h1, h2, h3⟩ := h
  cases hs : r.script with
  | nil => exact ⟨r, by simp [Reader.read, hs, h3], h1, h2, h3⟩
  | cons e es =>
    obtain ⟨c, hc, rfl⟩ := h1 e (by simp [hs])
    rw [hs] at h2
    simp [Ev.bytes] at h2
    exact absurd h2.1 hc

theorem read_one_cons {r : Reader} {x : U8} {xs : List U8} (h : Smooth r (x :: xs)) :
    ∃ r', r.read 1 = (.ok [x], r') ∧ Smooth r' xs := by
  obtain ⟨h1, h2, h3⟩ := h
  cases hs : r.script with
  | nil => rw [hs] at h2; simp at h2
  | cons e es =>
    obtain ⟨c, hc, rfl⟩ := h1 e (by simp [hs])
    rw [hs] at h2 h1
    simp only [evBytes_cons, Ev.bytes] at h2
    match c, hc with
    | [y], _ =>
      simp only [List.singleton_append, List.cons.injEq] at h2
      refine ⟨{ r with script := es }, by simp [Reader.read, hs, h2.1], ?_, h2.2, h3⟩
      intro e he; exact h1 e (List.mem_cons_of_mem _ he)
    | y :: z :: c, _ =>
      simp only [List.cons_append, List.cons.injEq] at h2
      refine ⟨{ r with script := .data (z :: c) :: es }, by simp [Reader.read, hs, h2.1], ?_, by simpa [Ev.bytes] using h2.2, h3⟩
      intro e he
      rcases List.mem_cons.1 he with rfl | he
      · exact ⟨_, by simp, rfl⟩
      · exact h1 e (List.mem_cons_of_mem _ he)

theorem next_nil {b : Bytes} {pos : Nat} (h : Rep b [] pos) : ∃ b', b.next = (.error .unexpectedEof, b') ∧ Rep b' [] pos ∧ b'.cache = [] := by
  obtain ⟨rr, h1, h2, h3⟩ := h
  simp only [List.append_eq_nil_iff, List.reverse_eq_nil_iff] at h2
  obtain ⟨h2, rfl⟩ := h2
  obtain ⟨r', e, hr'⟩ := read_one_nil h1
  refine ⟨{ b with reader := r' }, ?_, ⟨[], hr', by simp [h2], h3⟩, h2⟩
  simp [Bytes.next, h2, e]

theorem next_cons {b : Bytes} {x : U8} {xs : List U8} {pos : Nat} (h : Rep b (x :: xs) pos) :
    ∃ b', b.next = (.ok x, b') ∧ Rep b' xs (pos + 1) ∧ b'.cache.length = b.cache.length - 1 := by
  obtain ⟨rr, h1, h2, h3⟩ := h
  cases hc : b.cache.reverse with
  | nil =>
    have hc' : b.cache = [] := by simpa using hc
    rw [hc] at h2
    simp only [List.nil_append] at h2
    subst h2
    obtain ⟨r', e, hr'⟩ := read_one_cons h1
    refine ⟨⟨r', b.numRead + 1, b.cache⟩, ?_, ⟨xs, hr', by simp [hc'], by simp [hc', h3]⟩, by simp [hc']⟩
    simp [Bytes.next, hc', e]
  | cons y ys =>
    have hc' : b.cache = ys.reverse ++ [y] := by
      have := congrArg List.reverse hc; simpa using this
    rw [hc] at h2
    simp only [List.cons_append, List.cons.injEq] at h2
    obtain ⟨rfl, h2⟩ := h2
    refine ⟨⟨b.reader, b.numRead, ys.reverse⟩, ?_, ⟨rr, h1, by simpa using h2, ?_⟩, by simp [hc']⟩
    · simp [Bytes.next, hc']
    · simp only [hc', List.length_append, List.length_singleton] at h3; simp only; omega

theorem push_rep {b : Bytes} {rem w : List U8} {pos : Nat} (h : Rep b rem (pos + w.length)) : Rep (b.push w.reverse) (w ++ rem) pos := by
  obtain ⟨rr, h1, h2, h3⟩ := h
  refine ⟨rr, h1, by simp [Bytes.push, h2], ?_⟩
  simp [Bytes.push, h3]; omega

theorem push_cache (b : Bytes) (d : List U8) : (b.push d).cache.length = b.cache.length + d.length := by simp [Bytes.push]

/-- What comparing one pattern does. -/
theorem attempt_spec (pm : List (U8 × U8)) : ∀ (w : List U8) (b : Bytes) (rem : List U8) (pos : Nat), Rep b rem pos →
    (∃ j b', 1 ≤ j ∧ j ≤ pm.length ∧ j ≤ rem.length ∧ attempt pm w b = .mismatch (w ++ rem.take j) b' ∧
        Rep b' (rem.drop j) (pos + j) ∧ b'.cache.length = b.cache.length - j ∧ ¬ MatchPM pm rem) ∨
    (∃ b', rem.length < pm.length ∧ attempt pm w b = .io .unexpectedEof b' ∧ Rep b' [] (pos + rem.length) ∧ b'.cache = []) ∨
    (∃ b', pm.length ≤ rem.length ∧ MatchPM pm rem ∧ attempt pm w b = .found (w ++ rem.take pm.length) b' ∧
        Rep b' (rem.drop pm.length) (pos + pm.length) ∧ b'.cache.length = b.cache.length - pm.length) := by
  induction pm with
  | nil =>
    intro w b rem pos h
    right; right
    exact ⟨b, by simp, trivial, by simp [attempt], by simpa using h, by simp⟩
  | cons e pm ih =>
    obtain ⟨p, m⟩ := e
    intro w b rem pos h
    cases rem with
    | nil =>
      right; left
      obtain ⟨b', h1, h2, h3⟩ := next_nil h
      exact ⟨b', by simp, by simp [attempt, h1], by simpa using h2, h3⟩
    | cons x xs =>
      obtain ⟨b', h1, h2, h3⟩ := next_cons h
      by_cases hx : x &&& m = p
      · have ea : attempt ((p, m) :: pm) w b = attempt pm (w ++ [x]) b' := by simp [attempt, h1, hx]
        rw [ea]
        rcases ih (w ++ [x]) b' xs (pos + 1) h2 with ⟨j, b'', a1, a2, a3, a4, a5, a6, a7⟩ | ⟨b'', a1, a2, a3, a4⟩ | ⟨b'', a1, a2, a3, a4, a5⟩
        · left
          refine ⟨j + 1, b'', by omega, by simp; omega, by simp; omega, by simp [a4], ?_, by omega, ?_⟩
          · simpa [Nat.add_assoc, Nat.add_comm 1 j] using a5
          · intro hm; exact a7 hm.2
        · right; left
          refine ⟨b'', by simp; omega, a2, ?_, a4⟩
          simpa [Nat.add_assoc, Nat.add_comm 1] using a3
        · right; right
          refine ⟨b'', by simp; omega, ⟨hx, a2⟩, by simp [a3], ?_, by simp only [List.length_cons]; omega⟩
          simpa [Nat.add_assoc, Nat.add_comm 1] using a4
      · left
        refine ⟨1, b', by omega, by simp, by simp, by simp [attempt, h1, hx], by simpa using h2, h3, ?_⟩
        intro hm; exact hx hm.1

/-- Synchronizer state `s` is about to examine bit `8 * pos + p` of the stream, whose remaining bytes from `pos` on are `rem`. -/
structure At (asm : List U8) (len : Nat) (s : State) (rem : List U8) (pos p : Nat) : Prop where
  rep : Rep s.bytes rem pos
  pats : s.patterns = patterns asm
  msks : s.masks = masks asm
  idx : s.patternIdx = p
  lt : p < 8
  size : s.blockSize = len
  cache : s.bytes.cache.length ≤ asm.length + (if p = 0 then 0 else 1)

theorem occurs_succ (m s : List Bool) (k i : Nat) : Occurs m (s.drop k) i ↔ Occurs m s (k + i) := by
  unfold Occurs; rw [List.drop_drop]

theorem occurs_len {m s : List Bool} {i : Nat} (hm : m ≠ []) (h : Occurs m s i) : i + m.length ≤ s.length := by
  have := h.length_le
  have := List.length_pos_iff.2 hm
  simp only [List.length_drop] at *
  omega

theorem firstAt_skip {m s : List Bool} {a b i : Nat} (hab : a ≤ b) (hno : ∀ j, a ≤ j → j < b → ¬ Occurs m s j) :
    FirstAt m s b i → FirstAt m s a i := by
  rintro ⟨h1, h2, h3⟩
  refine ⟨by omega, h2, ?_⟩
  intro j hj hji
  by_cases hb : b ≤ j
  · exact h3 j hb hji
  · exact hno j hj (by omega)

theorem firstAt_drop {m s : List Bool} {k a i : Nat} (h : FirstAt m (s.drop k) a i) : FirstAt m s (k + a) (k + i) := by
  obtain ⟨h1, h2, h3⟩ := h
  refine ⟨by omega, (occurs_succ _ _ _ _).1 h2, ?_⟩
  intro j hj hji hoc
  have : j = k + (j - k) := by omega
  rw [this] at hoc
  exact h3 (j - k) (by omega) (by omega) ((occurs_succ _ _ _ _).2 hoc)

theorem bits_ne_nil {asm : List U8} (h : asm ≠ []) : bits asm ≠ [] := by
  intro e
  have := congrArg List.length e
  simp only [bits_length, List.length_nil] at this
  have := List.length_pos_iff.2 h
  omega

/-- Unfolding of one round of `scan`. -/
theorem scan_unfold (asm : List U8) (len : Nat) (s : State) (rem : List U8) (pos p : Nat) (h : At asm len s rem pos p) :
    scan s = match attempt (pmOf asm p) [] s.bytes with
      | .io k bytes =>
        if k = .unexpectedEof then .ret (.ok none, { s with bytes := bytes }) else .ret (.error (.io k), { s with bytes := bytes })
      | .mismatch working bytes =>
        if p + 1 = 8 then
          scan { s with patternIdx := 0, bytes := bytes.push (working.reverse.take (working.length - 1)) }
        else
          scan { s with patternIdx := p + 1, bytes := bytes.push working.reverse }
      | .found working bytes =>
        if bytes.numRead < bytes.cache.length then .panic else
        .ret (.ok (some ⟨if BitVec.ofNat 8 ((8 - p) % 8) = 0#8 then bytes.offset + 1 else bytes.offset, BitVec.ofNat 8 ((8 - p) % 8)⟩),
          { s with bytes := if p > 0 then bytes.push [working.getLast?.getD 0#8] else bytes }) := by
  have h8 : ¬ 8 ≤ s.patternIdx := by have := h.lt; have := h.idx; omega
  conv => lhs; rw [scan]
  rw [dif_neg h8]
  obtain ⟨sb, sz, sp, sm, si⟩ := s
  have e1 := h.pats
  have e2 := h.msks
  have e3 := h.idx
  simp only at e1 e2 e3
  subst e1 e2 e3
  simp only [patterns_get asm si h.lt, masks_get asm si h.lt, zip_get]
  split <;> rename_i heq <;> rw [zip_get] at heq <;> simp only [heq]
  split <;> rfl

theorem bit_zero_iff (p : Nat) (hp : p < 8) : BitVec.ofNat 8 ((8 - p) % 8) = 0#8 ↔ p = 0 := by
  have : p = 0 ∨ p = 1 ∨ p = 2 ∨ p = 3 ∨ p = 4 ∨ p = 5 ∨ p = 6 ∨ p = 7 := by omega
  rcases this with h | h | h | h | h | h | h | h <;> subst h <;> decide

theorem getLast_take {l : List U8} {n : Nat} (h : n < l.length) : (l.take (n + 1)).getLast?.getD 0#8 = l[n] := by
  rw [List.getLast?_eq_getElem?, List.length_take, Nat.min_eq_left (by omega)]
  simp [h]

/-- Scanning finds the first occurrence of the marker at or after the current bit, or ends. -/
theorem scan_spec (asm : List U8) (hasm : asm ≠ []) (len : Nat) (n : Nat) : ∀ (s : State) (rem : List U8) (pos p : Nat),
    n = 9 * rem.length + (8 - p) → At asm len s rem pos p →
    (∃ j q s', q < 8 ∧ FirstAt (bits asm) (bits rem) p (8 * j + q) ∧
      scan s = .ret (.ok (some ⟨pos + j + asm.length + 1, BitVec.ofNat 8 ((8 - q) % 8)⟩), s') ∧
      At asm len s' (rem.drop (j + asm.length)) (pos + j + asm.length) q ∧ s'.bytes.cache.length = (if q = 0 then 0 else 1)) ∨
    (∃ s' pos' p', (∀ i, p ≤ i → ¬ Occurs (bits asm) (bits rem) i) ∧ scan s = .ret (.ok none, s') ∧ At asm len s' [] pos' p') := by
  induction n using Nat.strongRecOn with
  | ind n ih =>
  intro s rem pos p hn h
  have hl : 0 < asm.length := List.length_pos_iff.2 hasm
  rw [scan_unfold asm len s rem pos p h]
  have hpl := pmOf_length asm p
  rcases attempt_spec (pmOf asm p) [] s.bytes rem pos h.rep with ⟨j, b', a1, a2, a3, a4, a5, a6, a7⟩ | ⟨b', a1, a2, a3, a4⟩ | ⟨b', a1, a2, a3, a4, a5⟩
  · -- mismatch
    rw [a4]
    simp only [List.nil_append]
    rw [match_iff asm rem hasm p h.lt] at a7
    have hcache := h.cache
    by_cases h7 : p + 1 = 8
    · rw [if_pos h7]
      obtain ⟨x, xs, rfl⟩ : ∃ x xs, rem = x :: xs := by
        cases rem with
        | nil => simp at a3; omega
        | cons x xs => exact ⟨x, xs, rfl⟩
      obtain ⟨j, rfl⟩ : ∃ i, j = i + 1 := ⟨j - 1, by omega⟩
      simp only [List.length_cons] at a3
      have e : ((List.take (j + 1) (x :: xs)).reverse.take ((List.take (j + 1) (x :: xs)).length - 1)) = (xs.take j).reverse := by
        simp only [List.take_succ_cons, List.reverse_cons, List.length_cons, Nat.add_sub_cancel]
        rw [List.take_append_of_le_length (by simp), List.take_of_length_le (by simp)]
      rw [e]
      have hlt : (xs.take j).length = j := by simp; omega
      have hrep : Rep (b'.push (xs.take j).reverse) xs (pos + 1) := by
        have := push_rep (b := b') (rem := xs.drop j) (w := xs.take j) (pos := pos + 1) (by
          rw [hlt]; simpa [Nat.add_assoc, Nat.add_comm 1] using a5)
        rwa [List.take_append_drop] at this
      have hat : At asm len { s with patternIdx := 0, bytes := b'.push (xs.take j).reverse } xs (pos + 1) 0 :=
        { rep := hrep, pats := h.pats, msks := h.msks, idx := rfl, lt := by omega, size := h.size,
          cache := by
            simp only [push_cache, List.length_reverse, hlt, a6]
            rw [if_neg (by omega)] at hcache hpl
            simp only [if_true]
            omega }
      have hno : ∀ i, p ≤ i → i < 8 → ¬ Occurs (bits asm) (bits (x :: xs)) i := by
        intro i h1 h2
        have : i = p := by omega
        subst this; exact a7
      have hb : bits xs = (bits (x :: xs)).drop 8 := by rw [bits_cons, List.drop_left' (by simp)]
      have hend : (∀ i, 0 ≤ i → ¬ Occurs (bits asm) (bits xs) i) → ∀ i, p ≤ i → ¬ Occurs (bits asm) (bits (x :: xs)) i := by
        intro b1 i hi hoc
        by_cases h8 : i < 8
        · exact hno i hi h8 hoc
        · apply b1 (i - 8) (by omega)
          rw [hb, occurs_succ, show 8 + (i - 8) = i by omega]
          exact hoc
      rcases ih (9 * xs.length + (8 - 0)) (by simp only [List.length_cons] at hn; omega) _ xs (pos + 1) 0 rfl hat with
        ⟨k, q, s', b1, b2, b3, b4, b5⟩ | ⟨s', pos', p', b1, b2, b3⟩
      · left
        refine ⟨k + 1, q, s', b1, ?_, ?_, ?_, b5⟩
        · rw [hb] at b2
          have := firstAt_skip (a := p) (by omega) (by simpa using hno) (firstAt_drop b2)
          rwa [show 8 + (8 * k + q) = 8 * (k + 1) + q by omega] at this
        · rw [b3, show pos + 1 + k + asm.length + 1 = pos + (k + 1) + asm.length + 1 by omega]
        · rw [show k + 1 + asm.length = (k + asm.length) + 1 by omega, List.drop_succ_cons, show pos + (k + 1) + asm.length = pos + 1 + k + asm.length by omega]
          exact b4
      · right
        exact ⟨s', pos', p', hend b1, b2, b3⟩
    · rw [if_neg h7]
      have hlt : (rem.take j).length = j := by simp; omega
      have hrep : Rep (b'.push (rem.take j).reverse) rem pos := by
        have := push_rep (b := b') (rem := rem.drop j) (w := rem.take j) (pos := pos) (by rw [hlt]; exact a5)
        rwa [List.take_append_drop] at this
      have hat : At asm len { s with patternIdx := p + 1, bytes := b'.push (rem.take j).reverse } rem pos (p + 1) :=
        { rep := hrep, pats := h.pats, msks := h.msks, idx := rfl, lt := by have := h.lt; omega, size := h.size,
          cache := by
            simp only [push_cache, List.length_reverse, hlt, a6]
            rw [if_neg (by omega)]
            split at hcache <;> split at hpl <;> omega }
      have hno : ∀ i, p ≤ i → i < p + 1 → ¬ Occurs (bits asm) (bits rem) i := by
        intro i h1 h2
        have : i = p := by omega
        subst this; exact a7
      have hend : (∀ i, p + 1 ≤ i → ¬ Occurs (bits asm) (bits rem) i) → ∀ i, p ≤ i → ¬ Occurs (bits asm) (bits rem) i := by
        intro b1 i hi
        by_cases h8 : i < p + 1
        · exact hno i hi h8
        · exact b1 i (by omega)
      rcases ih (9 * rem.length + (8 - (p + 1))) (by have := h.lt; omega) _ rem pos (p + 1) rfl hat with
        ⟨k, q, s', b1, b2, b3, b4, b5⟩ | ⟨s', pos', p', b1, b2, b3⟩
      · left
        exact ⟨k, q, s', b1, firstAt_skip (by omega) hno b2, b3, b4, b5⟩
      · right
        exact ⟨s', pos', p', hend b1, b2, b3⟩
  · -- end of stream
    rw [a2]
    right
    refine ⟨{ s with bytes := b' }, pos + rem.length, p, ?_, by simp, ?_⟩
    · intro i hi hoc
      have := occurs_len (bits_ne_nil hasm) hoc
      simp only [bits_length] at this
      split at hpl <;> omega
    · exact { rep := a3, pats := h.pats, msks := h.msks, idx := h.idx, lt := h.lt, size := h.size, cache := by simp [a4] }
  · -- found
    rw [a3]
    simp only [List.nil_append]
    obtain ⟨rr, r1, r2, r3⟩ := a4
    have hcache := h.cache
    have hc0 : b'.cache = [] := by
      apply List.length_eq_zero_iff.1
      split at hcache <;> split at hpl <;> omega
    have hle : ¬ b'.numRead < b'.cache.length := by omega
    rw [if_neg hle]
    rw [match_iff asm rem hasm p h.lt] at a2
    have hfirst : FirstAt (bits asm) (bits rem) p (8 * 0 + p) := by
      simp only [Nat.mul_zero, Nat.zero_add]
      exact ⟨by omega, a2, by omega⟩
    left
    by_cases h0 : p = 0
    · subst h0
      simp only [if_true, Nat.add_zero] at hpl
      refine ⟨0, 0, { s with bytes := b' }, by omega, hfirst, ?_, ?_, by simp [hc0]⟩
      · simp only [Bytes.offset, r3, hc0, hpl]
        simp
      · rw [hpl] at r2 r3
        refine { rep := ⟨rr, r1, ?_, ?_⟩, pats := h.pats, msks := h.msks, idx := h.idx, lt := h.lt, size := h.size, cache := by simp [hc0] }
        · rw [r2, Nat.zero_add]
        · simp only [r3]; omega
    · rw [if_neg h0] at hpl
      rw [hpl] at a1 r2 r3
      have hb0 := bit_zero_iff p h.lt
      refine ⟨0, p, { s with bytes := b'.push [rem[asm.length]] }, h.lt, hfirst, ?_, ?_, by simp [Bytes.push, hc0, h0]⟩
      · rw [if_neg (by simp [hb0, h0]), if_pos (by omega), hpl, getLast_take (by omega)]
        simp only [Bytes.offset, r3, hc0]
        simp; omega
      · refine { rep := ⟨rr, r1, ?_, ?_⟩, pats := h.pats, msks := h.msks, idx := h.idx, lt := h.lt, size := h.size, cache := by simp [Bytes.push, hc0, h0] }
        · simp only [hc0, List.reverse_nil, List.nil_append] at r2
          simp only [Bytes.push, hc0, List.nil_append, List.reverse_singleton, List.singleton_append, r2]
          rw [Nat.zero_add, ← List.drop_eq_getElem_cons]
        · simp [Bytes.push, r3, hc0]; omega

theorem readExactGo_data (t : Tail) (es : List Ev) (n : Nat) (acc : List U8) (h : ∀ e ∈ es, ∃ c, c ≠ [] ∧ e = Ev.data c) :
    ∀ e ∈ (Reader.readExactGo t es n acc).2.2, ∃ c, c ≠ [] ∧ e = Ev.data c := by
  fun_induction Reader.readExactGo t es n acc with
  | case1 => exact h
  | case2 => simp
  | case3 => simp
  | case4 => obtain ⟨c, _, hc⟩ := h _ List.mem_cons_self; simp at hc
  | case5 => obtain ⟨c, _, hc⟩ := h _ List.mem_cons_self; simp at hc
  | case6 => obtain ⟨c, hne, hc⟩ := h _ List.mem_cons_self; simp_all
  | case7 bs rest n acc h1 h2 ih => exact ih fun e he => h e (List.mem_cons_of_mem _ he)
  | case8 bs rest n acc h1 h2 =>
    intro e he
    rcases List.mem_cons.1 he with rfl | he
    · exact ⟨_, by simp; omega, rfl⟩
    · exact h e (List.mem_cons_of_mem _ he)

theorem smooth_delivers {r : Reader} {bs : List U8} (h : Smooth r bs) : r.Delivers bs :=
  ⟨fun e he => Or.inl (h.1 e he), h.2.1, h.2.2⟩

theorem smooth_enough {r : Reader} {bs : List U8} (hd : Smooth r bs) {n : Nat} (h : n ≤ bs.length) :
    ∃ r' : Reader, Smooth r' (bs.drop n) ∧ r.readExact n = (none, bs.take n, r') := by
  obtain ⟨r', h1, h2⟩ := readExact_enough (smooth_delivers hd) h
  refine ⟨r', ⟨?_, h1.2.1, h1.2.2⟩, h2⟩
  have := readExactGo_data r.tail r.script n [] hd.1
  have e : r' = (r.readExact n).2.2 := by rw [h2]
  rw [e]; exact this

theorem smooth_short {r : Reader} {bs : List U8} (hd : Smooth r bs) {n : Nat} (h : bs.length < n) :
    ∃ r' : Reader, Smooth r' [] ∧ r.readExact n = (some .unexpectedEof, bs, r') := by
  obtain ⟨r', h1, h2⟩ := readExact_short (smooth_delivers hd) h
  refine ⟨r', ⟨?_, h1.2.1, h1.2.2⟩, h2⟩
  have := readExactGo_data r.tail r.script n [] hd.1
  have e : r' = (r.readExact n).2.2 := by rw [h2]
  rw [e]; exact this

theorem leftShift_zero (x : List U8) : leftShift 0 x = x := by
  fun_induction leftShift 0 x <;> simp_all

theorem fill_empty_ok {b : Bytes} {n : Nat} {got : List U8} {r' : Reader} (hc : b.cache = []) (h : b.reader.readExact n = (none, got, r')) :
    b.fill n = (.ok true, got, ⟨r', b.numRead + n, []⟩) := by
  unfold Bytes.fill; rw [h, hc]; rfl

theorem fill_empty_eof {b : Bytes} {n : Nat} {got : List U8} {r' : Reader} (hc : b.cache = []) (h : b.reader.readExact n = (some .unexpectedEof, got, r')) :
    b.fill n = (.ok false, got ++ List.replicate (n - got.length) 0#8, ⟨r', b.numRead, []⟩) := by
  unfold Bytes.fill; rw [h, hc]; rfl

theorem readExact_zero (r : Reader) : r.readExact 0 = (none, [], r) := by
  simp [Reader.readExact, readExactGo_zero]

theorem fill_one_ok {b : Bytes} {n : Nat} {x : U8} {got : List U8} {r' : Reader} (hc : b.cache = [x]) (h : b.reader.readExact n = (none, got, r')) :
    b.fill (n + 1) = (.ok true, x :: got, ⟨r', b.numRead + n, []⟩) := by
  unfold Bytes.fill
  by_cases hn : n = 0
  · subst hn
    rw [readExact_zero] at h
    simp only [Prod.mk.injEq, true_and] at h
    obtain ⟨rfl, rfl⟩ := h
    simp [hc]
  · simp only [hc, List.isEmpty_cons, Bool.false_eq_true, if_false, List.length_singleton, Nat.add_sub_cancel, h]
    rw [if_pos (by omega)]; rfl

theorem fill_one_err {b : Bytes} {n : Nat} {x : U8} {got : List U8} {k : IoKind} {r' : Reader} (hn : n ≠ 0) (hc : b.cache = [x])
    (h : b.reader.readExact n = (some k, got, r')) :
    ∃ buf, b.fill (n + 1) = (.error k, buf, ⟨r', b.numRead, [x]⟩) := by
  unfold Bytes.fill
  simp only [hc, List.isEmpty_cons, Bool.false_eq_true, if_false, List.length_singleton, Nat.add_sub_cancel, h]
  rw [if_pos (by omega)]
  exact ⟨_, rfl⟩

theorem block_aligned {s : State} {t : Bool} {buf : List U8} {b' : Bytes} (hi : s.patternIdx = 0) (h : s.bytes.fill s.blockSize = (.ok t, buf, b')) :
    block s = (.ok (buf.take s.blockSize), { s with bytes := b' }) := by
  simp [block, hi, h, leftShift_zero]

theorem block_shifted {s : State} {t : Bool} {buf : List U8} {b' : Bytes} (hi : s.patternIdx ≠ 0) (h : s.bytes.fill (s.blockSize + 1) = (.ok t, buf, b')) :
    block s = (.ok ((leftShift s.patternIdx buf).take s.blockSize), { s with bytes := b'.push [buf.getLast?.getD 0#8] }) := by
  simp [block, hi, h]

theorem block_shifted_err {s : State} {k : IoKind} {buf : List U8} {b' : Bytes} (hi : s.patternIdx ≠ 0) (h : s.bytes.fill (s.blockSize + 1) = (.error k, buf, b')) :
    block s = (.error (.io k), { s with bytes := b' }) := by
  simp [block, hi, h]

/-- A complete block. -/
theorem block_full (asm : List U8) (len : Nat) (s : State) (rem : List U8) (pos q : Nat) (h : At asm len s rem pos q)
    (hc : s.bytes.cache.length = if q = 0 then 0 else 1) (hr : 8 * len + q ≤ 8 * rem.length) :
    ∃ data s', block s = (.ok data, s') ∧ data.length = len ∧ bits data = ((bits rem).drop q).take (8 * len) ∧
      At asm len s' (rem.drop len) (pos + len) q := by
  obtain ⟨rr, r1, r2, r3⟩ := h.rep
  by_cases h0 : q = 0
  · subst h0
    simp only [if_true] at hc
    have hc' := List.length_eq_zero_iff.1 hc
    simp only [hc', List.reverse_nil, List.nil_append] at r2
    subst r2
    obtain ⟨r', e1, e2⟩ := smooth_enough r1 (n := len) (by omega)
    have hf := fill_empty_ok hc' e2
    rw [← h.size] at hf
    have hbl := block_aligned h.idx hf
    rw [h.size, List.take_take, Nat.min_self] at hbl
    refine ⟨rr.take len, _, hbl, by simp; omega, by simp [bits_take], ?_⟩
    · refine { rep := ⟨rr.drop len, e1, by simp, ?_⟩, pats := h.pats, msks := h.msks, idx := h.idx, lt := h.lt, size := rfl, cache := by simp }
      simp only [r3, hc]; simp
  · rw [if_neg h0] at hc
    obtain ⟨b, hb⟩ := List.length_eq_one_iff.1 hc
    simp only [hb, List.reverse_singleton, List.singleton_append] at r2
    subst r2
    have hlt := h.lt
    simp only [List.length_cons] at hr
    have hle : len ≤ rr.length := by omega
    obtain ⟨r', e1, e2⟩ := smooth_enough r1 hle
    have hbuf : ∀ x, (leftShift q ((b :: rr).take (len + 1))).take len = x → x.length = len ∧ bits x = ((bits (b :: rr)).drop q).take (8 * len) := by
      intro x hx
      subst hx
      refine ⟨by simp [leftShift_length]; omega, ?_⟩
      rw [bits_take, bits_leftShift q hlt _ (by simp), bits_take, List.take_append_of_le_length (by simp; omega),
        List.drop_take, List.take_take, Nat.min_eq_left (by omega)]
    have hg : ((b :: rr).take (len + 1)).getLast?.getD 0#8 = (b :: rr)[len]'(by simp; omega) := getLast_take (by simp; omega)
    have hne : s.patternIdx ≠ 0 := by rw [h.idx]; exact h0
    have hf := fill_one_ok hb e2
    rw [← h.size] at hf
    have hbl := block_shifted hne hf
    rw [h.size, ← List.take_succ_cons, h.idx, hg] at hbl
    refine ⟨_, _, hbl, (hbuf _ rfl).1, (hbuf _ rfl).2, ?_⟩
    refine { rep := ⟨rr.drop len, e1, ?_, ?_⟩, pats := h.pats, msks := h.msks, idx := by simp [h.idx], lt := h.lt, size := by simp [h.size], cache := by simp [Bytes.push, h0] }
    · simp only [Bytes.push, List.nil_append, List.reverse_singleton, List.singleton_append]
      rw [List.drop_eq_getElem_cons (l := b :: rr) (i := len) (by simp; omega)]
      simp
    · simp only [r3, hb, List.length_singleton, Bytes.push, List.nil_append]; omega

/-- The stream ends inside the block, which starts at a byte boundary. -/
theorem block_short_aligned (asm : List U8) (len : Nat) (s : State) (rem : List U8) (pos : Nat) (h : At asm len s rem pos 0)
    (hc : s.bytes.cache.length = 0) (hr : rem.length < len) :
    ∃ s', block s = (.ok (rem ++ List.replicate (len - rem.length) 0#8), s') ∧ At asm len s' [] pos 0 := by
  obtain ⟨rr, r1, r2, r3⟩ := h.rep
  have hc' := List.length_eq_zero_iff.1 hc
  simp only [hc', List.reverse_nil, List.nil_append] at r2
  subst r2
  obtain ⟨r', e1, e2⟩ := smooth_short r1 hr
  have hf := fill_empty_eof hc' e2
  rw [← h.size] at hf
  have hbl := block_aligned h.idx hf
  rw [h.size, List.take_of_length_le (by simp; omega)] at hbl
  refine ⟨_, hbl, ?_⟩
  exact { rep := ⟨[], e1, by simp, by simp [r3, hc']⟩, pats := h.pats, msks := h.msks, idx := h.idx, lt := h.lt, size := by simp, cache := by simp }

/-- The stream ends inside the block, which starts inside a byte. -/
theorem block_short_shifted (asm : List U8) (hasm : asm ≠ []) (len : Nat) (s : State) (rem : List U8) (pos q : Nat) (h : At asm len s rem pos q)
    (h0 : q ≠ 0) (hc : s.bytes.cache.length = 1) (hr : rem.length < len + 1) :
    ∃ s' b, block s = (.error (.io .unexpectedEof), s') ∧ At asm len s' [b] pos q := by
  obtain ⟨rr, r1, r2, r3⟩ := h.rep
  obtain ⟨b, hb⟩ := List.length_eq_one_iff.1 hc
  simp only [hb, List.reverse_singleton, List.singleton_append] at r2
  subst r2
  simp only [List.length_cons] at hr
  obtain ⟨r', e1, e2⟩ := smooth_short r1 (n := len) (by omega)
  have hne : s.patternIdx ≠ 0 := by rw [h.idx]; exact h0
  obtain ⟨buf, hf⟩ := fill_one_err (by omega) hb e2
  rw [← h.size] at hf
  refine ⟨_, b, block_shifted_err hne hf, ?_⟩
  exact { rep := ⟨[], e1, by simp, by simp [r3, hb]⟩, pats := h.pats, msks := h.msks, idx := h.idx, lt := h.lt, size := h.size,
          cache := by simp [h0] }

/-- At the end, `next` returns `None`. -/
theorem next_end (asm : List U8) (hasm : asm ≠ []) (len last : Nat) (s : State) (rem : List U8) (pos p : Nat) (h : At asm len s rem pos p)
    (hno : ∀ i, p ≤ i → ¬ Occurs (bits asm) (bits rem) i) : ∃ s', Collects next ⟨s, last⟩ [] (some s') := by
  rcases scan_spec asm hasm len _ s rem pos p rfl h with ⟨j, q, s', a1, a2, a3, a4, a5⟩ | ⟨s', pos', p', a1, a2, a3⟩
  · exact absurd a2.2.1 (hno _ a2.1)
  · exact ⟨⟨s', last⟩, .done (by simp [next, a2])⟩

/-- What the item for a marker at bit `i` must be, when the previous item's offset was `prev` (0 for none). -/
def ItemOK (S : List U8) (n len prev i : Nat) (it : Except Error Block) : Prop :=
  if i + 8 * n + 8 * len ≤ 8 * S.length then
    ∃ data, data.length = len ∧ bits data = ((bits S).drop (i + 8 * n)).take (8 * len) ∧
      it = .ok ⟨if prev = 0 then 0 else (i / 8 + n + 1) - prev, ⟨i / 8 + n + 1, BitVec.ofNat 8 ((8 - i % 8) % 8)⟩, data⟩
  else if i % 8 = 0 then
    it = .ok ⟨if prev = 0 then 0 else (i / 8 + n + 1) - prev, ⟨i / 8 + n + 1, 0#8⟩,
      S.drop (i / 8 + n) ++ List.replicate (len - (S.drop (i / 8 + n)).length) 0#8⟩
  else it = .error (.io .unexpectedEof)

def ItemsOK (S : List U8) (n len : Nat) : Nat → List Nat → List (Except Error Block) → Prop
  | _, [], [] => True
  | prev, i :: ps, it :: its => ItemOK S n len prev i it ∧ ItemsOK S n len (i / 8 + n + 1) ps its
  | _, _, _ => False

theorem no_occurs_of_short {m s : List Bool} (hm : m ≠ []) {p : Nat} (h : s.length < p + m.length) : ∀ i, p ≤ i → ¬ Occurs m s i := by
  intro i hi hoc
  have := occurs_len hm hoc
  omega

/-- The whole run. -/
theorem run_spec (S asm : List U8) (hasm : asm ≠ []) (len : Nat) (n : Nat) : ∀ (s : State) (pos p last : Nat),
    n = S.length - pos → At asm len s (S.drop pos) pos p → last ≤ pos + 1 → 
    ∃ items s' ps, Collects next ⟨s, last⟩ items (some s') ∧ Markers (bits asm) (bits S) (8 * len) (8 * pos + p) ps ∧
      ItemsOK S asm.length len last ps items := by
  induction n using Nat.strongRecOn with
  | ind n ih =>
  intro s pos p last hn h hlast
  have hl : 0 < asm.length := List.length_pos_iff.2 hasm
  rcases scan_spec asm hasm len _ s _ pos p rfl h with ⟨j, q, s', a1, a2, a3, a4, a5⟩ | ⟨s', pos', p', a1, a2, a3⟩
  · rw [bits_drop] at a2
    have hf := firstAt_drop a2
    have hocc := occurs_len (bits_ne_nil hasm) hf.2.1
    simp only [bits_length] at hocc
    rw [List.drop_drop] at a4
    have hi8 : (8 * pos + (8 * j + q)) / 8 = pos + j := by omega
    have him : (8 * pos + (8 * j + q)) % 8 = q := by omega
    have hlast' : ¬ (last ≠ 0 ∧ pos + j + asm.length + 1 < last) := by omega
    by_cases hfull : 8 * len + q ≤ 8 * (S.drop (pos + (j + asm.length))).length
    · obtain ⟨data, s'', b1, b2, b3, b4⟩ := block_full asm len s' _ _ q a4 a5 hfull
      simp only [List.length_drop] at hfull
      rw [List.drop_drop] at b4
      obtain ⟨items, sf, ps, c1, c2, c3⟩ := ih (S.length - (pos + (j + asm.length) + len)) (by omega) s'' (pos + (j + asm.length) + len) q
        (pos + j + asm.length + 1) rfl (by
          rw [show pos + j + asm.length + len = pos + (j + asm.length) + len by omega] at b4
          exact b4) (by omega)
      refine ⟨.ok ⟨if last = 0 then 0 else pos + j + asm.length + 1 - last, ⟨pos + j + asm.length + 1, BitVec.ofNat 8 ((8 - q) % 8)⟩, data⟩ :: items,
        sf, (8 * pos + (8 * j + q)) :: ps, ?_, ?_, ?_⟩
      · refine .step ?_ c1
        simp only [next, a3, b1]
        rw [if_neg hlast']
      · refine .cons hf ?_
        rw [bits_length, show 8 * pos + (8 * j + q) + 8 * asm.length + 8 * len = 8 * (pos + (j + asm.length) + len) + q by omega]
        exact c2
      · refine ⟨?_, ?_⟩
        · unfold ItemOK
          rw [if_pos (by omega), hi8, him]
          refine ⟨data, b2, ?_, rfl⟩
          rw [b3, bits_drop, List.drop_drop]
          congr 2; omega
        · rw [hi8]; exact c3
    · have hnext : Markers (bits asm) (bits S) (8 * len) (8 * pos + p) [8 * pos + (8 * j + q)] := by
        refine .cons hf (.none ?_)
        apply no_occurs_of_short (bits_ne_nil hasm)
        simp only [bits_length, List.length_drop] at hfull ⊢
        omega
      by_cases h0 : q = 0
      · subst h0
        obtain ⟨s'', b1, b2⟩ := block_short_aligned asm len s' _ _ a4 (by simpa using a5) (by omega)
        obtain ⟨sf, c1⟩ := next_end asm hasm len (pos + j + asm.length + 1) s'' _ _ _ b2 (no_occurs_of_short (bits_ne_nil hasm) (by simp; omega))
        refine ⟨[.ok ⟨if last = 0 then 0 else pos + j + asm.length + 1 - last, ⟨pos + j + asm.length + 1, 0#8⟩,
            S.drop (pos + (j + asm.length)) ++ List.replicate (len - (S.drop (pos + (j + asm.length))).length) 0#8⟩], sf, _, .step ?_ c1, hnext, ?_⟩
        · simp only [next, a3, b1]
          rw [if_neg hlast']
        · refine ⟨?_, trivial⟩
          simp only [List.length_drop] at hfull
          unfold ItemOK
          rw [if_neg (by omega), hi8, him, if_pos rfl]
          rw [Nat.add_assoc pos j]
      · rw [if_neg h0] at a5
        obtain ⟨s'', b, b1, b2⟩ := block_short_shifted asm hasm len s' _ _ q a4 h0 a5 (by omega)
        obtain ⟨sf, c1⟩ := next_end asm hasm len (pos + j + asm.length + 1) s'' _ _ _ b2 (no_occurs_of_short (bits_ne_nil hasm) (by simp; omega))
        refine ⟨[.error (.io .unexpectedEof)], sf, _, .step ?_ c1, hnext, ?_⟩
        · simp only [next, a3, b1]
          rw [if_neg hlast']
        · refine ⟨?_, trivial⟩
          simp only [List.length_drop] at hfull
          unfold ItemOK
          rw [if_neg (by omega), him, if_neg h0]
  · refine ⟨[], ⟨s', last⟩, [], .done (by simp [next, a2]), .none ?_, trivial⟩
    intro i hi hoc
    apply a1 (i - 8 * pos) (by omega)
    rw [bits_drop, occurs_succ, show 8 * pos + (i - 8 * pos) = i by omega]
    exact hoc

theorem at_start (r : Reader) (S asm : List U8) (len : Nat) (h : Smooth r S) : At asm len (iter r asm len).scanner (S.drop 0) 0 0 :=
  { rep := ⟨S, h, rfl, rfl⟩, pats := rfl, msks := rfl, idx := rfl, lt := by omega, size := rfl, cache := by simp [iter, new, State.withAsm, Bytes.new] }

theorem run_iter (r : Reader) (S asm : List U8) (hasm : asm ≠ []) (len : Nat) (h : Smooth r S) :
    ∃ items s' ps, Collects next (iter r asm len) items (some s') ∧ Markers (bits asm) (bits S) (8 * len) 0 ps ∧
      ItemsOK S asm.length len 0 ps items := by
  have := run_spec S asm hasm len _ (iter r asm len).scanner 0 0 0 rfl (at_start r S asm len h) (by omega)
  simpa [iter] using this

/-- The marker positions are determined by the bits. -/
theorem firstAt_unique {m s : List Bool} {a i j : Nat} (h : FirstAt m s a i) (k : FirstAt m s a j) : i = j := by
  rcases Nat.lt_trichotomy i j with hij | hij | hij
  · exact absurd h.2.1 (k.2.2 i h.1 hij)
  · exact hij
  · exact absurd k.2.1 (h.2.2 j k.1 hij)

theorem markers_unique {m s : List Bool} {skip a : Nat} {ps qs : List Nat} (h : Markers m s skip a ps) (k : Markers m s skip a qs) : ps = qs := by
  induction h generalizing qs with
  | none h =>
    cases k with
    | none => rfl
    | cons k _ => exact absurd k.2.1 (h _ k.1)
  | cons h _ ih =>
    cases k with
    | none k => exact absurd h.2.1 (k _ h.1)
    | cons k k' =>
      obtain rfl := firstAt_unique h k
      rw [ih k']

theorem itemsOK_length {S : List U8} {n len prev : Nat} {ps : List Nat} {its : List (Except Error Block)} (h : ItemsOK S n len prev ps its) :
    its.length = ps.length := by
  induction ps generalizing prev its with
  | nil => cases its with | nil => rfl | cons => exact h.elim
  | cons p ps ih => cases its with | nil => exact h.elim | cons i its => simp [ih h.2]

theorem itemsOK_get {S : List U8} {n len prev : Nat} {ps : List Nat} {its : List (Except Error Block)} (h : ItemsOK S n len prev ps its)
    {k : Nat} {p : Nat} (hk : ps[k]? = some p) :
    ∃ it, its[k]? = some it ∧ ItemOK S n len (match k with | 0 => prev | k' + 1 => (ps[k']?.getD 0) / 8 + n + 1) p it := by
  induction k generalizing prev ps its with
  | zero =>
    cases ps with
    | nil => simp at hk
    | cons q ps =>
      cases its with
      | nil => exact h.elim
      | cons i its =>
        simp only [List.getElem?_cons_zero, Option.some.injEq] at hk
        subst hk
        exact ⟨i, rfl, h.1⟩
  | succ k ih =>
    cases ps with
    | nil => simp at hk
    | cons q ps =>
      cases its with
      | nil => exact h.elim
      | cons i its =>
        simp only [List.getElem?_cons_succ] at hk
        obtain ⟨it, h1, h2⟩ := ih h.2 hk
        refine ⟨it, by simpa using h1, ?_⟩
        cases k with
        | zero => simpa using h2
        | succ k => simpa using h2

theorem markers_bound {m s : List Bool} {skip a : Nat} {ps : List Nat} (hm : m ≠ []) (h : Markers m s skip a ps) (ha : a ≤ s.length + skip) :
    a + ps.length * (m.length + skip) ≤ s.length + skip := by
  induction h with
  | none => simpa using ha
  | cons h _ ih =>
    have := occurs_len hm h.2.1
    have := ih (by omega)
    have := h.1
    simp only [List.length_cons, Nat.add_mul, Nat.one_mul]
    omega

end Sync
end Ccsds
