import Verif.Spec.Interrupts
import Verif.Proofs.SyncSafe
/-! Lemmas about the synchronizer on a reader whose reads are interrupted. -/
namespace Ccsds
open Spec

namespace Sync

theorem pad_get (p : Nat) (c : Bool) (X Y : List Bool) (k : Nat) (hk : k < X.length) : (List.replicate p c ++ X ++ Y)[p + k]? = X[k]? := by
  rw [List.append_assoc, List.getElem?_append_right (by simp), List.length_replicate, Nat.add_sub_cancel_left, List.getElem?_append_left hk]

theorem pad_get_low (p : Nat) (c : Bool) (X Y : List Bool) (k : Nat) (hk : k < p) : (List.replicate p c ++ X ++ Y)[k]? = some c := by
  rw [List.append_assoc, List.getElem?_append_left (by simpa using hk), List.getElem?_replicate, if_pos hk]

/-- Bits of the padded pattern. -/
theorem pattern_bits (asm : List U8) (p : Nat) (hp : p < 8) :
    bits (if p = 0 then asm else leftShift (8 - p) (0#8 :: asm)) = List.replicate p false ++ bits asm ++ List.replicate ((8 - p) % 8) false := by
  by_cases h0 : p = 0
  · subst h0; simp
  · rw [if_neg h0, bits_leftShift _ (by omega) _ (by simp), bits_cons, bits_zero, List.drop_append_of_le_length (by simp), List.drop_replicate,
      show 8 - (8 - p) = p by omega, show (8 - p) % 8 = 8 - p by omega]

/-- A beginning of a masked pattern matches iff the marker at that bit offset agrees with the bits of these bytes. -/
theorem matchTake_iff (asm rem : List U8) (p : Nat) (hp : p < 8) (j : Nat) (hj : j ≤ (pmOf asm p).length) (hr : j ≤ rem.length) :
    MatchPM ((pmOf asm p).take j) rem ↔ Agrees (bits asm) (bits rem) (8 * j) p := by
  rw [← zip_get, List.zip, List.take_zipWith, ← List.zip]
  generalize hP : (if p = 0 then asm else leftShift (8 - p) (0#8 :: asm)) = P
  generalize hM : (if p = 0 then List.replicate asm.length 0xff#8 else leftShift (8 - p) (0#8 :: List.replicate asm.length 0xff#8)) = M
  have bP : bits P = List.replicate p false ++ bits asm ++ List.replicate ((8 - p) % 8) false := by rw [← hP]; exact pattern_bits asm p hp
  have bM : bits M = List.replicate p false ++ List.replicate (8 * asm.length) true ++ List.replicate ((8 - p) % 8) false := by
    rw [← hM, ← bits_ff]
    have := pattern_bits (List.replicate asm.length 0xff#8) p hp
    exact this
  have lP : P.length = asm.length + (if p = 0 then 0 else 1) := by rw [← hP]; split <;> simp [leftShift_length]
  have lM : M.length = P.length := by rw [lP, ← hM]; split <;> simp [leftShift_length]
  rw [pmOf_length, ← lP] at hj
  rw [matchPM_iff _ _ _ (by simp; omega), List.length_take, Nat.min_eq_left hj, bits_take, bits_take, bP, bM]
  constructor
  · rintro ⟨_, h⟩ k b hk hb
    have hkl : k < 8 * asm.length := by
      have := (List.getElem?_eq_some_iff.1 hk).1
      simpa using this
    have := congrArg (fun l => l[p + k]?) h
    simp only [List.getElem?_zipWith, List.getElem?_take, hb, if_true] at this
    rw [pad_get _ _ _ _ _ (by simpa using hkl), pad_get _ _ _ _ _ (by simpa using hkl), hk, List.getElem?_replicate, if_pos hkl] at this
    have hx : p + k < (bits rem).length := by rw [bits_length]; omega
    rw [List.getElem?_eq_getElem hx] at this ⊢
    simpa using this
  · intro h
    refine ⟨hr, ?_⟩
    apply List.ext_getElem?
    intro t
    simp only [List.getElem?_zipWith, List.getElem?_take]
    by_cases ht : t < 8 * j
    · simp only [ht, if_true]
      have hx : t < (bits rem).length := by rw [bits_length]; omega
      rw [List.getElem?_eq_getElem hx]
      by_cases h1 : t < p
      · rw [pad_get_low _ _ _ _ _ h1, pad_get_low _ _ _ _ _ h1]
        simp
      · by_cases h2 : t - p < 8 * asm.length
        · obtain ⟨u, rfl⟩ : ∃ u, t = p + u := ⟨t - p, by omega⟩
          rw [Nat.add_sub_cancel_left] at h2
          rw [pad_get _ _ _ _ _ (by simpa using h2), pad_get _ _ _ _ _ (by simpa using h2), List.getElem?_replicate, if_pos h2]
          have hk : u < (bits asm).length := by simpa using h2
          have := h u _ (List.getElem?_eq_getElem hk) (by omega)
          rw [List.getElem?_eq_getElem hx] at this
          rw [List.getElem?_eq_getElem hk]
          simpa using this
        · have e3 : t < p + 8 * asm.length + (8 - p) % 8 := by
            have : 8 * j ≤ 8 * P.length := by omega
            rw [lP] at this
            split at this <;> omega
          rw [List.getElem?_append_right (by simp; omega), List.getElem?_append_right (by simp; omega)]
          simp only [List.length_append, List.length_replicate, bits_length, List.getElem?_replicate]
          rw [if_pos (by omega)]
          simp
    · simp [ht]

/-- The bytes still to come are `rem`, the first of them is at offset `pos` of the stream, and reads will be interrupted at `ints`. -/
def IRep (b : Bytes) (rem : List U8) (pos : Nat) (ints : List Nat) : Prop :=
  ∃ rr, b.reader.Delivers rr ∧ b.cache.reverse ++ rr = rem ∧ b.numRead = pos + b.cache.length ∧ interruptsFrom b.numRead b.reader.script = ints

theorem interruptsFrom_ge (n : Nat) (es : List Ev) : ∀ k ∈ interruptsFrom n es, n ≤ k := by
  induction es generalizing n with
  | nil => simp [interruptsFrom]
  | cons e es ih =>
    cases e with
    | data c =>
      intro k hk
      have := ih (n + c.length) k hk
      omega
    | err k =>
      intro j hj
      simp only [interruptsFrom, List.mem_cons] at hj
      rcases hj with rfl | hj
      · exact Nat.le_refl _
      · exact ih n j hj

theorem irep_ge {b : Bytes} {rem : List U8} {pos : Nat} {ints : List Nat} (h : IRep b rem pos ints) : ∀ n ∈ ints, pos + b.cache.length ≤ n := by
  obtain ⟨rr, h1, h2, h3, h4⟩ := h
  subst h4
  intro n hn
  have := interruptsFrom_ge _ _ n hn
  omega

/-- Reading one byte. -/
theorem inext {b : Bytes} {rem : List U8} {pos : Nat} {ints : List Nat} (h : IRep b rem pos ints) :
    (∃ x xs b', rem = x :: xs ∧ b.next = (.ok x, b') ∧ IRep b' xs (pos + 1) ints ∧ b'.cache.length = b.cache.length - 1) ∨
    (∃ b', rem = [] ∧ ints = [] ∧ b.next = (.error .unexpectedEof, b') ∧ IRep b' [] pos [] ∧ b'.cache = []) ∨
    (∃ after b', ints = pos :: after ∧ b.next = (.error .interrupted, b') ∧ IRep b' rem pos after ∧ b'.cache = []) := by
  obtain ⟨rr, ⟨g1, g2, g3⟩, h2, h3, h4⟩ := h
  cases hc : b.cache.reverse with
  | cons y ys =>
    have hc' : b.cache = ys.reverse ++ [y] := by
      have := congrArg List.reverse hc; simpa using this
    rw [hc] at h2
    left
    refine ⟨y, ys ++ rr, ⟨b.reader, b.numRead, ys.reverse⟩, by rw [← h2]; rfl, by simp [Bytes.next, hc'], ⟨rr, ⟨g1, g2, g3⟩, by simp, ?_, h4⟩, by simp [hc']⟩
    simp only [hc', List.length_append, List.length_singleton] at h3; simp only; omega
  | nil =>
    have hc' : b.cache = [] := by simpa using hc
    rw [hc] at h2
    simp only [List.nil_append] at h2
    subst h2
    simp only [hc', List.length_nil, Nat.add_zero] at h3
    cases hs : b.reader.script with
    | nil =>
      rw [hs] at g2 h4
      simp only [evBytes_nil] at g2
      subst g2
      right; left
      refine ⟨{ b with reader := b.reader }, rfl, h4.symm, by obtain ⟨br, bn, bc⟩ := b; simp only at hc' hs g3; simp [Bytes.next, hc', Reader.read, hs, g3], ⟨[], ⟨g1, by rw [hs]; rfl, g3⟩, by simp [hc'], by simp [hc', h3], by simp [hs, interruptsFrom]⟩, hc'⟩
    | cons e es =>
      rw [hs] at g1 g2 h4
      have g1' : ∀ e ∈ es, e.Good := fun e he => g1 e (List.mem_cons_of_mem _ he)
      rcases g1 e List.mem_cons_self with ⟨c, hcne, rfl⟩ | rfl
      · left
        simp only [evBytes_cons, Ev.bytes] at g2
        match c, hcne with
        | [y], _ =>
          refine ⟨y, evBytes es, ⟨{ b.reader with script := es }, b.numRead + 1, b.cache⟩, g2.symm, by simp [Bytes.next, hc', Reader.read, hs],
            ⟨evBytes es, ⟨g1', rfl, g3⟩, by simp [hc'], by simp [hc', h3], ?_⟩, by simp [hc']⟩
          simpa [interruptsFrom] using h4
        | y :: z :: c, _ =>
          refine ⟨y, z :: c ++ evBytes es, ⟨{ b.reader with script := .data (z :: c) :: es }, b.numRead + 1, b.cache⟩, g2.symm, by simp [Bytes.next, hc', Reader.read, hs],
            ⟨z :: c ++ evBytes es, ⟨?_, rfl, g3⟩, by simp [hc'], by simp [hc', h3], ?_⟩, by simp [hc']⟩
          · intro e he
            rcases List.mem_cons.1 he with rfl | he
            · exact Or.inl ⟨_, by simp, rfl⟩
            · exact g1' e he
          · simp only [interruptsFrom, List.length_cons] at h4 ⊢
            rw [← h4]; congr 1; omega
      · right; right
        refine ⟨interruptsFrom b.numRead es, ⟨{ b.reader with script := es }, b.numRead, b.cache⟩, ?_, by simp [Bytes.next, hc', Reader.read, hs],
          ⟨rr, ⟨g1', by simpa [Ev.bytes] using g2, g3⟩, by simp [hc'], by simp [hc', h3], rfl⟩, hc'⟩
        rw [← h4, ← h3]; rfl

theorem ipush {b : Bytes} {rem w : List U8} {pos : Nat} {ints : List Nat} (h : IRep b rem (pos + w.length) ints) : IRep (b.push w.reverse) (w ++ rem) pos ints := by
  obtain ⟨rr, h1, h2, h3, h4⟩ := h
  refine ⟨rr, h1, by simp [Bytes.push, h2], ?_, h4⟩
  simp [Bytes.push, h3]; omega

/-- What comparing one pattern does. -/
theorem iattempt (pm : List (U8 × U8)) : ∀ (w : List U8) (b : Bytes) (rem : List U8) (pos : Nat) (ints : List Nat), IRep b rem pos ints →
    (∃ j b', 1 ≤ j ∧ j ≤ pm.length ∧ j ≤ rem.length ∧ attempt pm w b = .mismatch (w ++ rem.take j) b' ∧
        IRep b' (rem.drop j) (pos + j) ints ∧ b'.cache.length = b.cache.length - j ∧ ¬ MatchPM (pm.take j) rem) ∨
    (∃ b', rem.length < pm.length ∧ ints = [] ∧ attempt pm w b = .io .unexpectedEof b' ∧ IRep b' [] (pos + rem.length) [] ∧ b'.cache = []) ∨
    (∃ b', pm.length ≤ rem.length ∧ MatchPM pm rem ∧ attempt pm w b = .found (w ++ rem.take pm.length) b' ∧
        IRep b' (rem.drop pm.length) (pos + pm.length) ints ∧ b'.cache.length = b.cache.length - pm.length) ∨
    (∃ j after b', j < pm.length ∧ j ≤ rem.length ∧ ints = (pos + j) :: after ∧ attempt pm w b = .io .interrupted b' ∧
        MatchPM (pm.take j) rem ∧ IRep b' (rem.drop j) (pos + j) after ∧ b'.cache = []) := by
  induction pm with
  | nil =>
    intro w b rem pos ints h
    right; right; left
    exact ⟨b, by simp, trivial, by simp [attempt], by simpa using h, by simp⟩
  | cons e pm ih =>
    obtain ⟨p, m⟩ := e
    intro w b rem pos ints h
    rcases inext h with ⟨x, xs, b', rfl, h1, h2, h3⟩ | ⟨b', rfl, rfl, h1, h2, h3⟩ | ⟨after, b', rfl, h1, h2, h3⟩
    · by_cases hx : x &&& m = p
      · have ea : attempt ((p, m) :: pm) w b = attempt pm (w ++ [x]) b' := by simp [attempt, h1, hx]
        rw [ea]
        rcases ih (w ++ [x]) b' xs (pos + 1) ints h2 with ⟨j, b'', a1, a2, a3, a4, a5, a6, a7⟩ | ⟨b'', a1, a0, a2, a3, a4⟩ | ⟨b'', a1, a2, a3, a4, a5⟩ | ⟨j, after, b'', a1, a2, a3, a4, a5, a6, a7⟩
        · left
          refine ⟨j + 1, b'', by omega, by simp; omega, by simp; omega, by simp [a4], ?_, by omega, ?_⟩
          · simpa [Nat.add_assoc, Nat.add_comm 1 j] using a5
          · intro hm; exact a7 hm.2
        · right; left
          refine ⟨b'', by simp; omega, a0, a2, ?_, a4⟩
          simpa [Nat.add_assoc, Nat.add_comm 1] using a3
        · right; right; left
          refine ⟨b'', by simp; omega, ⟨hx, a2⟩, by simp [a3], ?_, by simp only [List.length_cons]; omega⟩
          simpa [Nat.add_assoc, Nat.add_comm 1] using a4
        · right; right; right
          refine ⟨j + 1, after, b'', by simp; omega, by simp; omega, by rw [a3]; congr 1; omega, a4, ⟨hx, a5⟩, ?_, a7⟩
          simpa [Nat.add_assoc, Nat.add_comm 1 j] using a6
      · left
        refine ⟨1, b', by omega, by simp, by simp, by simp [attempt, h1, hx], by simpa using h2, h3, ?_⟩
        intro hm; exact hx hm.1
    · right; left
      exact ⟨b', by simp, rfl, by simp [attempt, h1], by simpa using h2, h3⟩
    · right; right; right
      exact ⟨0, after, b', by simp, by simp, by simp, by simp [attempt, h1], by simp [MatchPM], by simpa using h2, h3⟩

/-- Synchronizer state `s` is about to examine bit `8 * pos + p` of the stream `S`. -/
structure IAt (asm : List U8) (len : Nat) (S : List U8) (s : State) (pos p : Nat) (ints : List Nat) : Prop where
  rep : IRep s.bytes (S.drop pos) pos ints
  pats : s.patterns = patterns asm
  msks : s.masks = masks asm
  idx : s.patternIdx = p
  lt : p < 8
  size : s.blockSize = len
  cache : s.bytes.cache.length ≤ asm.length + (if p = 0 then 0 else 1)
  pos_le : pos ≤ S.length

/-- Unfolding of one round of `scan`. -/
theorem iscan_unfold (asm : List U8) (len : Nat) (S : List U8) (s : State) (pos p : Nat) (ints : List Nat) (h : IAt asm len S s pos p ints) :
    scan s = match attempt (pmOf asm p) [] s.bytes with
      | .io k bytes =>
        if k = .unexpectedEof then .ret (.ok none, { s with bytes := bytes }) else .ret (.error (.io k), { s with bytes := bytes })
      | .mismatch working bytes =>
        if p + 1 = 8 then
          scan { s with patternIdx := 0, bytes := bytes.push (working.reverse.take (working.length - 1)) }
        else
          scan { s with patternIdx := p + 1, bytes := bytes.push working.reverse }
      | .found working bytes =>
        if bytes.numRead < bytes.cache.length then .panic else
        .ret (.ok (some ⟨if BitVec.ofNat 8 ((8 - p) % 8) = 0#8 then bytes.offset + 1 else bytes.offset, BitVec.ofNat 8 ((8 - p) % 8)⟩),
          { s with bytes := if p > 0 then bytes.push [working.getLast?.getD 0#8] else bytes }) := by
  have h8 : ¬ 8 ≤ s.patternIdx := by have := h.lt; have := h.idx; omega
  conv => lhs; rw [scan]
  rw [dif_neg h8]
  obtain ⟨sb, sz, sp, sm, si⟩ := s
  have e1 := h.pats
  have e2 := h.msks
  have e3 := h.idx
  simp only at e1 e2 e3
  subst e1 e2 e3
  simp only [patterns_get asm si h.lt, masks_get asm si h.lt]
  split <;> rename_i heq <;> rw [zip_get] at heq <;> simp only [heq]
  split <;> rfl

theorem agrees_drop {m s : List Bool} {a known x : Nat} : Agrees m (s.drop a) known x ↔ Agrees m s (a + known) (a + x) := by
  unfold Agrees
  constructor
  · intro h k b hk hb
    have := h k b hk (by omega)
    rwa [List.getElem?_drop, ← Nat.add_assoc] at this
  · intro h k b hk hb
    rw [List.getElem?_drop, ← Nat.add_assoc]
    exact h k b hk (by omega)

theorem agrees_mono {m s : List Bool} {known known' x : Nat} (hk : known ≤ known') (h : Agrees m s known' x) : Agrees m s known x :=
  fun k b hb hx => h k b hb (by omega)

theorem agrees_of_occurs {m s : List Bool} {known x : Nat} (h : Occurs m s x) : Agrees m s known x := by
  intro k b hk _
  obtain ⟨t, ht⟩ := h
  have := congrArg (fun l => l[k]?) ht
  simp only [List.getElem?_drop] at this
  rw [← this, List.getElem?_append_left (List.getElem?_eq_some_iff.1 hk).1, hk]

theorem occurs_drop (m : List Bool) (S : List U8) (pos p : Nat) : Occurs m (bits (S.drop pos)) p ↔ Occurs m (bits S) (8 * pos + p) := by
  rw [bits_drop, occurs_succ]

/-- Scanning: the first occurrence of the marker at or after the current bit, an interruption, or the end. -/
theorem iscan_spec (asm : List U8) (hasm : asm ≠ []) (len : Nat) (S : List U8) (ints : List Nat) (n : Nat) : ∀ (s : State) (pos p : Nat),
    n = 9 * (S.length - pos) + (8 - p) → IAt asm len S s pos p ints →
    (∃ j q s', q < 8 ∧ FirstAt (bits asm) (bits S) (8 * pos + p) (8 * j + q) ∧ pos ≤ j ∧
      scan s = .ret (.ok (some ⟨j + asm.length + 1, BitVec.ofNat 8 ((8 - q) % 8)⟩), s') ∧
      IAt asm len S s' (j + asm.length) q ints ∧ s'.bytes.cache.length = (if q = 0 then 0 else 1)) ∨
    (∃ s', ints = [] ∧ (∀ i, 8 * pos + p ≤ i → ¬ Occurs (bits asm) (bits S) i) ∧ scan s = .ret (.ok none, s')) ∨
    (∃ s' x k after, ints = k :: after ∧ pos ≤ k ∧ FirstCandidate (bits asm) (bits S) (8 * k) (8 * pos + p) x ∧
      8 * k < x + (bits asm).length ∧ scan s = .ret (.error (.io .interrupted), s') ∧ IAt asm len S s' k (x % 8) after) := by
  induction n using Nat.strongRecOn with
  | ind n ih =>
  intro s pos p hn h
  have hl : 0 < asm.length := List.length_pos_iff.2 hasm
  rw [iscan_unfold asm len S s pos p ints h]
  have hpl := pmOf_length asm p
  have hpos := h.pos_le
  have hrl : (S.drop pos).length = S.length - pos := by simp
  rcases iattempt (pmOf asm p) [] s.bytes _ pos ints h.rep with ⟨j, b', a1, a2, a3, a4, a5, a6, a7⟩ | ⟨b', a1, a0, a2, a3, a4⟩ | ⟨b', a1, a2, a3, a4, a5⟩ | ⟨j, after, b', a1, a2, a3, a4, a5, a6, a7⟩
  · -- mismatch
    rw [a4]
    simp only [List.nil_append]
    rw [matchTake_iff asm _ p h.lt j a2 a3, bits_drop, agrees_drop] at a7
    have hge := irep_ge a5
    have hno : ¬ Occurs (bits asm) (bits S) (8 * pos + p) := fun ho => a7 (agrees_of_occurs ho)
    have hnag : ∀ k ∈ ints, ¬ Agrees (bits asm) (bits S) (8 * k) (8 * pos + p) := by
      intro k hk ha
      have := hge k hk
      exact a7 (agrees_mono (by omega) ha)
    have hcache := h.cache
    have hlift : ∀ {s1 : State} {pos1 p1 : Nat}, 8 * pos1 + p1 = 8 * pos + p + 1 → pos ≤ pos1 → IAt asm len S s1 pos1 p1 ints →
        9 * (S.length - pos1) + (8 - p1) < n →
        (∃ j q s', q < 8 ∧ FirstAt (bits asm) (bits S) (8 * pos + p) (8 * j + q) ∧ pos ≤ j ∧
          scan s1 = .ret (.ok (some ⟨j + asm.length + 1, BitVec.ofNat 8 ((8 - q) % 8)⟩), s') ∧
          IAt asm len S s' (j + asm.length) q ints ∧ s'.bytes.cache.length = (if q = 0 then 0 else 1)) ∨
        (∃ s', ints = [] ∧ (∀ i, 8 * pos + p ≤ i → ¬ Occurs (bits asm) (bits S) i) ∧ scan s1 = .ret (.ok none, s')) ∨
        (∃ s' x k after, ints = k :: after ∧ pos ≤ k ∧ FirstCandidate (bits asm) (bits S) (8 * k) (8 * pos + p) x ∧
          8 * k < x + (bits asm).length ∧ scan s1 = .ret (.error (.io .interrupted), s') ∧ IAt asm len S s' k (x % 8) after) := by
      intro s1 pos1 p1 hb hp1 hat hlt
      rcases ih _ hlt s1 pos1 p1 rfl hat with ⟨k, q, s', b1, b2, b0, b3, b4, b5⟩ | ⟨s', b0, b1, b2⟩ | ⟨s', x, k, after, b0, b1, b2, b3, b4, b5⟩
      · left
        refine ⟨k, q, s', b1, firstAt_skip (b := 8 * pos1 + p1) (by omega) ?_ b2, by omega, b3, b4, b5⟩
        intro i h1 h2
        have : i = 8 * pos + p := by omega
        subst this; exact hno
      · right; left
        refine ⟨s', b0, ?_, b2⟩
        intro i hi
        by_cases h8 : i = 8 * pos + p
        · subst h8; exact hno
        · exact b1 i (by omega)
      · right; right
        refine ⟨s', x, k, after, b0, by omega, ⟨by have := b2.1; omega, b2.2.1, ?_⟩, b3, b4, b5⟩
        intro i h1 h2
        by_cases h8 : i = 8 * pos + p
        · subst h8; exact hnag k (by rw [b0]; exact List.mem_cons_self)
        · exact b2.2.2 i (by omega) h2
    by_cases h7 : p + 1 = 8
    · rw [if_pos h7]
      obtain ⟨x, xs, hx⟩ : ∃ x xs, S.drop pos = x :: xs := by
        cases hd : S.drop pos with
        | nil => rw [hd] at a3; simp at a3; omega
        | cons x xs => exact ⟨x, xs, rfl⟩
      rw [hx] at a3 a5 hrl ⊢
      have hxs : S.drop (pos + 1) = xs := by rw [← List.drop_drop, hx]; rfl
      obtain ⟨j, rfl⟩ : ∃ i, j = i + 1 := ⟨j - 1, by omega⟩
      simp only [List.length_cons] at a3 hrl
      have e : ((List.take (j + 1) (x :: xs)).reverse.take ((List.take (j + 1) (x :: xs)).length - 1)) = (xs.take j).reverse := by
        simp only [List.take_succ_cons, List.reverse_cons, List.length_cons, Nat.add_sub_cancel]
        rw [List.take_append_of_le_length (by simp), List.take_of_length_le (by simp)]
      rw [e]
      have hlt : (xs.take j).length = j := by simp; omega
      have hrep : IRep (b'.push (xs.take j).reverse) xs (pos + 1) ints := by
        have := ipush (b := b') (rem := xs.drop j) (w := xs.take j) (pos := pos + 1) (ints := ints) (by
          rw [hlt]; simpa [Nat.add_assoc, Nat.add_comm 1] using a5)
        rwa [List.take_append_drop] at this
      have hat : IAt asm len S { s with patternIdx := 0, bytes := b'.push (xs.take j).reverse } (pos + 1) 0 ints :=
        { rep := by rw [hxs]; exact hrep, pats := h.pats, msks := h.msks, idx := rfl, lt := by omega, size := h.size, pos_le := by omega,
          cache := by
            simp only [push_cache, List.length_reverse, hlt, a6]
            rw [if_neg (by omega)] at hcache hpl
            simp only [if_true]
            omega }
      exact hlift (by omega) (by omega) hat (by omega)
    · rw [if_neg h7]
      have hlt : ((S.drop pos).take j).length = j := by simp at a3 ⊢; omega
      have hrep : IRep (b'.push ((S.drop pos).take j).reverse) (S.drop pos) pos ints := by
        have := ipush (b := b') (rem := (S.drop pos).drop j) (w := (S.drop pos).take j) (pos := pos) (ints := ints) (by rw [hlt]; exact a5)
        rwa [List.take_append_drop] at this
      have hat : IAt asm len S { s with patternIdx := p + 1, bytes := b'.push ((S.drop pos).take j).reverse } pos (p + 1) ints :=
        { rep := hrep, pats := h.pats, msks := h.msks, idx := rfl, lt := by have := h.lt; omega, size := h.size, pos_le := hpos,
          cache := by
            simp only [push_cache, List.length_reverse, hlt, a6]
            rw [if_neg (by omega)]
            split at hcache <;> split at hpl <;> omega }
      exact hlift (by omega) (by omega) hat (by have := h.lt; omega)
  · -- end of stream
    rw [a2]
    right; left
    refine ⟨{ s with bytes := b' }, a0, ?_, by simp⟩
    intro i hi hoc
    have := occurs_len (bits_ne_nil hasm) hoc
    simp only [bits_length] at this
    have := h.lt
    split at hpl <;> omega
  · -- found
    rw [a3]
    simp only [List.nil_append]
    obtain ⟨rr, r1, r2, r3, r4⟩ := a4
    have hcache := h.cache
    have hc0 : b'.cache = [] := by
      apply List.length_eq_zero_iff.1
      split at hcache <;> split at hpl <;> omega
    have hle : ¬ b'.numRead < b'.cache.length := by omega
    rw [if_neg hle]
    rw [match_iff asm _ hasm p h.lt, occurs_drop] at a2
    have hfirst : FirstAt (bits asm) (bits S) (8 * pos + p) (8 * pos + p) := ⟨by omega, a2, by omega⟩
    left
    by_cases h0 : p = 0
    · subst h0
      simp only [if_true, Nat.add_zero] at hpl
      refine ⟨pos, 0, { s with bytes := b' }, by omega, hfirst, by omega, ?_, ?_, by simp [hc0]⟩
      · simp only [Bytes.offset, r3, hc0, hpl]
        simp
      · rw [hpl] at r2 r3
        refine { rep := ⟨rr, r1, ?_, ?_, r4⟩, pats := h.pats, msks := h.msks, idx := h.idx, lt := h.lt, size := h.size, cache := by simp [hc0], pos_le := by omega }
        · rw [r2, List.drop_drop]
        · simp only [r3]
    · rw [if_neg h0] at hpl
      rw [hpl] at a1 r2 r3
      have hb0 := bit_zero_iff p h.lt
      refine ⟨pos, p, { s with bytes := b'.push [(S.drop pos)[asm.length]] }, h.lt, hfirst, by omega, ?_, ?_, by simp [Bytes.push, hc0, h0]⟩
      · rw [if_neg (by simp [hb0, h0]), if_pos (by omega), hpl, getLast_take (by omega)]
        simp only [Bytes.offset, r3, hc0]
        simp; omega
      · refine { rep := ⟨rr, r1, ?_, ?_, r4⟩, pats := h.pats, msks := h.msks, idx := h.idx, lt := h.lt, size := h.size, cache := by simp [Bytes.push, hc0, h0], pos_le := by omega }
        · simp only [hc0, List.reverse_nil, List.nil_append] at r2
          simp only [Bytes.push, hc0, List.nil_append, List.reverse_singleton, List.singleton_append, r2]
          have hd := List.drop_eq_getElem_cons (l := S.drop pos) (i := asm.length) (by omega)
          rw [List.drop_drop (i := asm.length)] at hd
          exact hd.symm
        · simp [Bytes.push, r3, hc0]; omega
  · -- interrupted
    rw [a4]
    right; right
    rw [matchTake_iff asm _ p h.lt j (by omega) a2, bits_drop, agrees_drop] at a5
    refine ⟨{ s with bytes := b' }, 8 * pos + p, pos + j, after, a3, by omega, ⟨by omega, by rwa [Nat.mul_add], by omega⟩, ?_, by simp, ?_⟩
    · rw [bits_length]
      have := h.lt
      split at hpl <;> omega
    · have e : (8 * pos + p) % 8 = p := by have := h.lt; omega
      rw [e]
      exact { rep := by rw [← List.drop_drop]; exact a6, pats := h.pats, msks := h.msks, idx := h.idx, lt := h.lt, size := h.size, cache := by simp [a7], pos_le := by omega }

theorem interrupts_go (t : Tail) (es : List Ev) (n : Nat) (acc : List U8) (base : Nat) (hg : ∀ e ∈ es, e.Good) (hn : n ≤ (evBytes es).length) :
    interruptsFrom (base + n) (Reader.readExactGo t es n acc).2.2 = (interruptsFrom base es).filter fun k => base + n ≤ k := by
  induction es generalizing n acc base with
  | nil =>
    simp only [evBytes_nil, List.length_nil, Nat.le_zero] at hn
    subst hn
    rfl
  | cons e es ih =>
    have hg' : ∀ e ∈ es, e.Good := fun e he => hg e (List.mem_cons_of_mem _ he)
    match n with
    | 0 =>
      rw [readExactGo_zero]
      symm
      apply List.filter_eq_self.2
      intro k hk
      simpa using interruptsFrom_ge _ _ k hk
    | n + 1 =>
      rcases hg e List.mem_cons_self with ⟨c, hc, rfl⟩ | rfl
      · simp only [evBytes_cons, Ev.bytes, List.length_append] at hn
        rw [Reader.readExactGo, if_neg hc]
        by_cases hl : c.length ≤ n + 1
        · rw [if_pos hl]
          have := ih (n + 1 - c.length) (acc ++ c) (base + c.length) hg' (by omega)
          rw [show base + c.length + (n + 1 - c.length) = base + (n + 1) by omega] at this
          simpa [interruptsFrom] using this
        · rw [if_neg hl]
          simp only [interruptsFrom, List.length_drop]
          rw [show base + (n + 1) + (c.length - (n + 1)) = base + c.length by omega]
          symm
          apply List.filter_eq_self.2
          intro k hk
          have := interruptsFrom_ge _ _ k hk
          simp; omega
      · simp only [evBytes_cons, Ev.bytes, List.nil_append] at hn
        rw [Reader.readExactGo, if_pos rfl, ih (n + 1) acc base hg' hn]
        simp [interruptsFrom]

theorem ienough {r : Reader} {bs : List U8} (hd : r.Delivers bs) {n : Nat} (h : n ≤ bs.length) (base : Nat) :
    ∃ r' : Reader, r'.Delivers (bs.drop n) ∧ r.readExact n = (none, bs.take n, r') ∧
      interruptsFrom (base + n) r'.script = (interruptsFrom base r.script).filter fun k => base + n ≤ k := by
  obtain ⟨r', h1, h2⟩ := readExact_enough hd h
  refine ⟨r', h1, h2, ?_⟩
  have := interrupts_go r.tail r.script n [] base hd.1 (by rw [hd.2.1]; exact h)
  have e : r' = (r.readExact n).2.2 := by rw [h2]
  rw [e]; exact this

theorem ishort {r : Reader} {bs : List U8} (hd : r.Delivers bs) {n : Nat} (h : bs.length < n) :
    ∃ r' : Reader, Smooth r' [] ∧ r.readExact n = (some .unexpectedEof, bs, r') := by
  obtain ⟨hg, he, ht⟩ := hd
  have h3 := readExactGo_short r.tail r.script [] hg n [] (by rw [he]; exact h)
  refine ⟨⟨[], r.tail⟩, ⟨by simp, rfl, ht⟩, ?_⟩
  simp only [List.append_nil, List.nil_append, he] at h3
  obtain ⟨m, hm⟩ : ∃ m, n - bs.length = m + 1 := ⟨n - bs.length - 1, by omega⟩
  rw [hm, ht] at h3
  simp [Reader.readExact, h3, Reader.readExactGo, ht]

/-- A complete block. -/
theorem iblock_full (asm : List U8) (len : Nat) (S : List U8) (s : State) (pos q : Nat) (ints : List Nat) (h : IAt asm len S s pos q ints)
    (hc : s.bytes.cache.length = if q = 0 then 0 else 1) (hr : 8 * pos + 8 * len + q ≤ 8 * S.length) :
    ∃ data s', block s = (.ok data, s') ∧ data.length = len ∧ bits data = ((bits S).drop (8 * pos + q)).take (8 * len) ∧
      IAt asm len S s' (pos + len) q (ints.filter fun k => 8 * pos + q + 8 * len ≤ 8 * k) := by
  obtain ⟨rr, r1, r2, r3, r4⟩ := h.rep
  have hlt := h.lt
  by_cases h0 : q = 0
  · subst h0
    simp only [if_true] at hc
    have hc' := List.length_eq_zero_iff.1 hc
    simp only [hc', List.reverse_nil, List.nil_append, List.length_nil, Nat.add_zero] at r2 r3
    subst r2
    obtain ⟨r', e1, e2, e3⟩ := ienough r1 (n := len) (by simp; omega) s.bytes.numRead
    have hf := fill_empty_ok hc' e2
    rw [← h.size] at hf
    have hbl := block_aligned h.idx hf
    rw [h.size, List.take_take, Nat.min_self] at hbl
    refine ⟨_, _, hbl, by simp; omega, by simp [bits_take, bits_drop], ?_⟩
    · refine { rep := ⟨_, e1, by simp, by simp [r3], ?_⟩, pats := h.pats, msks := h.msks, idx := h.idx, lt := h.lt, size := rfl, cache := by simp, pos_le := by omega }
      simp only
      rw [e3, r4]
      apply List.filter_congr
      intro k _
      rw [r3]
      simp only [decide_eq_decide]; omega
  · rw [if_neg h0] at hc
    obtain ⟨b, hb⟩ := List.length_eq_one_iff.1 hc
    simp only [hb, List.reverse_singleton, List.singleton_append, List.length_singleton] at r2 r3
    have hlen : (S.drop pos).length = rr.length + 1 := by rw [← r2]; simp
    rw [List.length_drop] at hlen
    have hle : len ≤ rr.length := by omega
    obtain ⟨r', e1, e2, e3⟩ := ienough r1 hle s.bytes.numRead
    have hbuf : ∀ x, (leftShift q ((b :: rr).take (len + 1))).take len = x → x.length = len ∧ bits x = ((bits (b :: rr)).drop q).take (8 * len) := by
      intro x hx
      subst hx
      refine ⟨by simp [leftShift_length]; omega, ?_⟩
      rw [bits_take, bits_leftShift q hlt _ (by simp), bits_take, List.take_append_of_le_length (by simp; omega),
        List.drop_take, List.take_take, Nat.min_eq_left (by omega)]
    have hg : ((b :: rr).take (len + 1)).getLast?.getD 0#8 = (b :: rr)[len]'(by simp; omega) := getLast_take (by simp; omega)
    have hne : s.patternIdx ≠ 0 := by rw [h.idx]; exact h0
    have hf := fill_one_ok hb e2
    rw [← h.size] at hf
    have hbl := block_shifted hne hf
    rw [h.size, ← List.take_succ_cons, h.idx, hg] at hbl
    refine ⟨_, _, hbl, (hbuf _ rfl).1, ?_, ?_⟩
    · rw [(hbuf _ rfl).2, r2, bits_drop, List.drop_drop]
    refine { rep := ⟨rr.drop len, e1, ?_, ?_, ?_⟩, pats := h.pats, msks := h.msks, idx := by simp, lt := h.lt, size := by simp, cache := by simp [Bytes.push, h0], pos_le := by omega }
    · simp only [Bytes.push, List.nil_append, List.reverse_singleton, List.singleton_append]
      rw [← List.drop_drop, ← r2, List.drop_eq_getElem_cons (l := b :: rr) (i := len) (by simp; omega)]
      simp
    · simp only [r3, Bytes.push, List.nil_append, List.length_singleton]; omega
    · simp only [Bytes.push]
      rw [e3, r4]
      apply List.filter_congr
      intro k _
      rw [r3]
      simp only [decide_eq_decide]; omega

/-- The stream ends inside the block, which starts at a byte boundary. -/
theorem iblock_short_aligned (asm : List U8) (len : Nat) (S : List U8) (s : State) (pos : Nat) (ints : List Nat) (h : IAt asm len S s pos 0 ints)
    (hc : s.bytes.cache.length = 0) (hr : S.length < pos + len) :
    ∃ s', block s = (.ok (S.drop pos ++ List.replicate (len - (S.drop pos).length) 0#8), s') ∧ At asm len s' [] pos 0 := by
  obtain ⟨rr, r1, r2, r3, r4⟩ := h.rep
  have hc' := List.length_eq_zero_iff.1 hc
  simp only [hc', List.reverse_nil, List.nil_append] at r2
  subst r2
  have hp := h.pos_le
  obtain ⟨r', e1, e2⟩ := ishort r1 (n := len) (by simp; omega)
  have hf := fill_empty_eof hc' e2
  rw [← h.size] at hf
  have hbl := block_aligned h.idx hf
  rw [h.size, List.take_of_length_le (by simp; omega)] at hbl
  refine ⟨_, hbl, ?_⟩
  exact { rep := ⟨[], e1, by simp, by simp [r3, hc']⟩, pats := h.pats, msks := h.msks, idx := h.idx, lt := h.lt, size := by simp, cache := by simp }

/-- The stream ends inside the block, which starts inside a byte. -/
theorem iblock_short_shifted (asm : List U8) (len : Nat) (S : List U8) (s : State) (pos q : Nat) (ints : List Nat) (h : IAt asm len S s pos q ints)
    (h0 : q ≠ 0) (hc : s.bytes.cache.length = 1) (hr : S.length < pos + len + 1) :
    ∃ s' b, block s = (.error (.io .unexpectedEof), s') ∧ At asm len s' [b] pos q := by
  obtain ⟨rr, r1, r2, r3, r4⟩ := h.rep
  obtain ⟨b, hb⟩ := List.length_eq_one_iff.1 hc
  simp only [hb, List.reverse_singleton, List.singleton_append] at r2
  have hlen : (S.drop pos).length = rr.length + 1 := by rw [← r2]; simp
  rw [List.length_drop] at hlen
  obtain ⟨r', e1, e2⟩ := ishort r1 (n := len) (by omega)
  have hne : s.patternIdx ≠ 0 := by rw [h.idx]; exact h0
  obtain ⟨buf, hf⟩ := fill_one_err (by omega) hb e2
  rw [← h.size] at hf
  refine ⟨_, b, block_shifted_err hne hf, ?_⟩
  exact { rep := ⟨[], e1, by simp, by simp [r3, hb]⟩, pats := h.pats, msks := h.msks, idx := h.idx, lt := h.lt, size := h.size,
          cache := by simp [h0] }

/-- The items that correspond to what is come across. -/
def VisitsOK (S : List U8) (n len : Nat) : Nat → List (Option Nat) → List (Except Error Block) → Prop
  | _, [], [] => True
  | prev, some i :: ps, it :: its => ItemOK S n len prev i it ∧ VisitsOK S n len (i / 8 + n + 1) ps its
  | prev, none :: ps, it :: its => it = .error (.io .interrupted) ∧ VisitsOK S n len prev ps its
  | _, _, _ => False

/-- The whole run. -/
theorem irun_spec (S asm : List U8) (hasm : asm ≠ []) (len : Nat) (n : Nat) : ∀ (s : State) (pos p last : Nat) (ints : List Nat),
    n = (S.length - pos) + ints.length → IAt asm len S s pos p ints → last ≤ pos + 1 →
    ∃ items s' ps, Collects next ⟨s, last⟩ items (some s') ∧ Visits (bits asm) (bits S) (8 * len) ints (8 * pos + p) ps ∧
      VisitsOK S asm.length len last ps items := by
  induction n using Nat.strongRecOn with
  | ind n ih =>
  intro s pos p last ints hn h hlast
  have hl : 0 < asm.length := List.length_pos_iff.2 hasm
  rcases iscan_spec asm hasm len S ints _ s pos p rfl h with ⟨j, q, s', a1, hf, hj, a3, a4, a5⟩ | ⟨s', rfl, a1, a2⟩ | ⟨s', x, k, after, rfl, a1, a2, a3, a4, a5⟩
  · have hocc := occurs_len (bits_ne_nil hasm) hf.2.1
    simp only [bits_length] at hocc
    have hi8 : (8 * j + q) / 8 = j := by omega
    have him : (8 * j + q) % 8 = q := by omega
    have hlast' : ¬ (last ≠ 0 ∧ j + asm.length + 1 < last) := by omega
    have hge := irep_ge a4.rep
    have hints : ∀ k ∈ ints, 8 * j + q + (bits asm).length ≤ 8 * k := by
      intro k hk
      have := hge k hk
      rw [a5] at this
      rw [bits_length]
      split at this <;> omega
    by_cases hfull : 8 * (j + asm.length) + 8 * len + q ≤ 8 * S.length
    · obtain ⟨data, s'', b1, b2, b3, b4⟩ := iblock_full asm len S s' _ q ints a4 a5 hfull
      have hfl : (ints.filter fun k => 8 * (j + asm.length) + q + 8 * len ≤ 8 * k).length ≤ ints.length := List.length_filter_le _ _
      obtain ⟨items, sf, ps, c1, c2, c3⟩ := ih _ (by omega) s'' _ q (j + asm.length + 1) _ rfl b4 (by omega)
      refine ⟨.ok ⟨if last = 0 then 0 else j + asm.length + 1 - last, ⟨j + asm.length + 1, BitVec.ofNat 8 ((8 - q) % 8)⟩, data⟩ :: items,
        sf, some (8 * j + q) :: ps, ?_, ?_, ?_⟩
      · refine .step ?_ c1
        simp only [next, a3, b1]
        rw [if_neg hlast']
      · refine .marker hf hints ?_
        rw [bits_length, show 8 * j + q + 8 * asm.length + 8 * len = 8 * (j + asm.length + len) + q by omega]
        rw [show 8 * (j + asm.length) + q + 8 * len = 8 * (j + asm.length + len) + q by omega] at c2
        exact c2
      · refine ⟨?_, ?_⟩
        · unfold ItemOK
          rw [if_pos (by omega), hi8, him]
          refine ⟨data, b2, ?_, rfl⟩
          rw [b3]
          congr 2; omega
        · rw [hi8]; exact c3
    · have hnil : (ints.filter fun k => 8 * j + q + (bits asm).length + 8 * len ≤ 8 * k) = [] := by
        apply List.filter_eq_nil_iff.2
        intro k hk
        have hk1 : k ≤ S.length := by
          obtain ⟨rr, ⟨g1, g2, g3⟩, r2, r3, r4⟩ := a4.rep
          rw [← r4] at hk
          have hub : ∀ (es : List Ev) (b : Nat), ∀ k ∈ interruptsFrom b es, k ≤ b + (evBytes es).length := by
            intro es
            induction es with
            | nil => intro b k hk; simp [interruptsFrom] at hk
            | cons e es ih2 =>
              intro b k hk
              cases e with
              | data c =>
                have := ih2 _ _ hk
                simp only [evBytes_cons, Ev.bytes, List.length_append]; omega
              | err kk =>
                simp only [interruptsFrom, List.mem_cons] at hk
                rcases hk with rfl | hk
                · omega
                · have := ih2 _ _ hk
                  simpa [Ev.bytes] using this
          have h1 := hub _ _ _ hk
          have h2 := congrArg List.length r2
          have h3 := a4.pos_le
          simp only [List.length_append, List.length_reverse, List.length_drop] at h2
          rw [g2] at h1
          omega
        rw [bits_length]
        simp only [decide_eq_true_eq]
        omega
      have hnext : Visits (bits asm) (bits S) (8 * len) ints (8 * pos + p) [some (8 * j + q)] := by
        refine .marker hf hints ?_
        rw [hnil]
        refine .none ?_
        apply no_occurs_of_short (bits_ne_nil hasm)
        simp only [bits_length]
        omega
      by_cases h0 : q = 0
      · subst h0
        obtain ⟨s'', b1, b2⟩ := iblock_short_aligned asm len S s' _ ints a4 (by simpa using a5) (by omega)
        obtain ⟨sf, c1⟩ := next_end asm hasm len (j + asm.length + 1) s'' _ _ _ b2 (no_occurs_of_short (bits_ne_nil hasm) (by simp; omega))
        refine ⟨[.ok ⟨if last = 0 then 0 else j + asm.length + 1 - last, ⟨j + asm.length + 1, 0#8⟩,
            S.drop (j + asm.length) ++ List.replicate (len - (S.drop (j + asm.length)).length) 0#8⟩], sf, _, .step ?_ c1, hnext, ?_⟩
        · simp only [next, a3, b1]
          rw [if_neg hlast']
        · refine ⟨?_, trivial⟩
          unfold ItemOK
          rw [if_neg (by omega), hi8, him, if_pos rfl]
      · rw [if_neg h0] at a5
        obtain ⟨s'', b, b1, b2⟩ := iblock_short_shifted asm len S s' _ q ints a4 h0 a5 (by omega)
        obtain ⟨sf, c1⟩ := next_end asm hasm len (j + asm.length + 1) s'' _ _ _ b2 (no_occurs_of_short (bits_ne_nil hasm) (by simp; omega))
        refine ⟨[.error (.io .unexpectedEof)], sf, _, .step ?_ c1, hnext, ?_⟩
        · simp only [next, a3, b1]
          rw [if_neg hlast']
        · refine ⟨?_, trivial⟩
          unfold ItemOK
          rw [if_neg (by omega), him, if_neg h0]
  · exact ⟨[], ⟨s', last⟩, [], .done (by simp [next, a2]), .none a1, trivial⟩
  · obtain ⟨items, sf, ps, c1, c2, c3⟩ := ih ((S.length - k) + after.length) (by simp only [List.length_cons] at hn; omega) s' k (x % 8) last after rfl a5 (by omega)
    exact ⟨.error (.io .interrupted) :: items, sf, none :: ps, .step (by simp [next, a4]) c1, .interrupted a2 a3 c2, rfl, c3⟩

theorem irun_iter (r : Reader) (S asm : List U8) (hasm : asm ≠ []) (len : Nat) (h : r.Delivers S) :
    ∃ items s' ps, Collects next (iter r asm len) items (some s') ∧
      Visits (bits asm) (bits S) (8 * len) (interruptsFrom 0 r.script) 0 ps ∧ VisitsOK S asm.length len 0 ps items := by
  have hat : IAt asm len S (iter r asm len).scanner 0 0 (interruptsFrom 0 r.script) :=
    { rep := ⟨S, h, rfl, rfl, rfl⟩, pats := rfl, msks := rfl, idx := rfl, lt := by omega, size := rfl,
      cache := by simp [iter, new, State.withAsm, Bytes.new], pos_le := by omega }
  have := irun_spec S asm hasm len _ (iter r asm len).scanner 0 0 0 _ rfl hat (by omega)
  simpa [iter] using this

end Sync
end Ccsds
