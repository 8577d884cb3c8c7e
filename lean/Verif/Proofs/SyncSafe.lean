import Verif.Proofs.Sync
/-! The synchronizer on arbitrary readers: no panic; never-ending with an empty marker. -/
namespace Ccsds
open Spec
namespace Sync

/-- At least `k` bytes of the stream are behind the current position. -/
def Past (b : Bytes) (k : Nat) : Prop := b.cache.length + k ≤ b.numRead

theorem past_next_ok {b b' : Bytes} {x : U8} {k : Nat} (h : Past b k) (e : b.next = (.ok x, b')) : Past b' (k + 1) := by
  unfold Past at *
  unfold Bytes.next at e
  cases hc : b.cache.getLast? with
  | some y =>
    rw [hc] at e
    simp only [Prod.mk.injEq] at e
    obtain ⟨_, rfl⟩ := e
    have hne : b.cache ≠ [] := by intro h; simp [h] at hc
    have := List.length_pos_iff.2 hne
    simp; omega
  | none =>
    rw [hc] at e
    simp only at e
    split at e
    · simp at e
    · simp at e
    · simp only [Prod.mk.injEq] at e
      obtain ⟨_, rfl⟩ := e
      simp; omega

theorem past_next_err {b b' : Bytes} {kk : IoKind} {k : Nat} (h : Past b k) (e : b.next = (.error kk, b')) : Past b' k := by
  unfold Past at *
  unfold Bytes.next at e
  cases hc : b.cache.getLast? with
  | some y => rw [hc] at e; simp at e
  | none =>
    rw [hc] at e
    simp only at e
    split at e
    · simp only [Prod.mk.injEq] at e
      obtain ⟨_, rfl⟩ := e
      simpa using h
    · simp only [Prod.mk.injEq] at e
      obtain ⟨_, rfl⟩ := e
      simpa using h
    · simp at e

theorem past_push {b : Bytes} {d : List U8} {k : Nat} (h : Past b (k + d.length)) : Past (b.push d) k := by
  unfold Past at *; simp [Bytes.push]; omega

theorem past_mono {b : Bytes} {k l : Nat} (h : Past b l) (hk : k ≤ l) : Past b k := by unfold Past at *; omega

theorem past_attempt (pm : List (U8 × U8)) : ∀ (w : List U8) (b : Bytes) (k : Nat), Past b k →
    match attempt pm w b with
    | .io _ b' => Past b' k
    | .mismatch w' b' => w.length < w'.length ∧ Past b' (k + (w'.length - w.length))
    | .found _ b' => Past b' (k + pm.length) := by
  induction pm with
  | nil => intro w b k h; simpa [attempt] using h
  | cons e pm ih =>
    obtain ⟨p, m⟩ := e
    intro w b k h
    rw [attempt]
    cases hn : b.next with
    | mk res b' =>
      cases res with
      | error kk => exact past_next_err h hn
      | ok x =>
        have hx := past_next_ok h hn
        simp only
        by_cases hm : x &&& m ≠ p
        · rw [if_pos hm]
          refine ⟨by simp, ?_⟩
          simpa using hx
        · rw [if_neg hm]
          have := ih (w ++ [x]) b' (k + 1) hx
          revert this
          cases attempt pm (w ++ [x]) b' with
          | io kk b'' => exact fun h => past_mono h (by omega)
          | mismatch w' b'' =>
            simp only [List.length_append, List.length_singleton]
            rintro ⟨h1, h2⟩
            exact ⟨by omega, past_mono h2 (by omega)⟩
          | found w' b'' =>
            simp only [List.length_cons]
            intro h1
            exact past_mono h1 (by omega)

/-- A synchronizer for the marker `asm`. -/
def For (asm : List U8) (s : State) : Prop := s.patterns = patterns asm ∧ s.masks = masks asm ∧ s.patternIdx < 8

theorem scan_safe (asm : List U8) (s : State) : ∀ k, For asm s → Past s.bytes k →
    ∃ res s', scan s = .ret (res, s') ∧ For asm s' ∧ Past s'.bytes k ∧
      ∀ loc, res = .ok (some loc) → k + 1 ≤ loc.offset ∧ Past s'.bytes (loc.offset - 1) := by
  fun_induction scan s with
  | case1 s h8 => intro k hf; have := hf.2.2; omega
  | case2 s h8 pat mask e1 e2 b hat =>
    intro k hf hp
    have := past_attempt (pat.zip mask) [] s.bytes k hp
    rw [hat] at this
    exact ⟨_, _, rfl, hf, this, by simp⟩
  | case3 s h8 pat mask e1 e2 kk b hat hk =>
    intro k hf hp
    have := past_attempt (pat.zip mask) [] s.bytes k hp
    rw [hat] at this
    exact ⟨_, _, rfl, hf, this, by simp⟩
  | case4 s h8 pat mask e1 e2 w b hat h7 ih =>
    intro k hf hp
    have := past_attempt (pat.zip mask) [] s.bytes k hp
    rw [hat] at this
    obtain ⟨h1, h2⟩ := this
    exact ih k ⟨hf.1, hf.2.1, by simp⟩ (past_push (past_mono h2 (by simp)))
  | case5 s h8 pat mask e1 e2 w b hat h7 ih =>
    intro k hf hp
    have := past_attempt (pat.zip mask) [] s.bytes k hp
    rw [hat] at this
    obtain ⟨h1, h2⟩ := this
    exact ih k ⟨hf.1, hf.2.1, by have := hf.2.2; simp; omega⟩ (past_push (past_mono h2 (by simp)))
  | case6 s h8 pat mask e1 e2 w b hat hlt =>
    intro k hf hp
    have := past_attempt (pat.zip mask) [] s.bytes k hp
    rw [hat] at this
    simp only [Past] at this
    omega
  | case7 s h8 pat mask e1 e2 w b hat hlt bit offset bb b' =>
    intro k hf hp
    have := past_attempt (pat.zip mask) [] s.bytes k hp
    rw [hat] at this
    simp only at this
    have hl : (pat.zip mask).length = asm.length + (if s.patternIdx = 0 then 0 else 1) := by
      rw [hf.1, patterns_get asm _ hf.2.2] at e2
      rw [hf.2.1, masks_get asm _ hf.2.2] at e1
      simp only [Option.some.injEq] at e1 e2
      subst e1 e2
      rw [zip_get, pmOf_length]
    rw [hl] at this
    have hbit : bit = 0#8 ↔ s.patternIdx = 0 := bit_zero_iff _ hf.2.2
    refine ⟨_, _, rfl, hf, ?_, ?_⟩
    · simp only [Past] at this ⊢
      show (if s.patternIdx > 0 then b.push [bb] else b).cache.length + k ≤ (if s.patternIdx > 0 then b.push [bb] else b).numRead
      by_cases h0 : s.patternIdx = 0
      · rw [h0] at this ⊢; simp at this ⊢; omega
      · rw [if_neg h0] at this; simp [Nat.pos_of_ne_zero h0, Bytes.push]; omega
    · intro loc hloc
      simp only [Except.ok.injEq, Option.some.injEq] at hloc
      subst hloc
      simp only [Past] at this ⊢
      show k + 1 ≤ offset ∧ (if s.patternIdx > 0 then b.push [bb] else b).cache.length + (offset - 1) ≤ (if s.patternIdx > 0 then b.push [bb] else b).numRead
      by_cases h0 : s.patternIdx = 0
      · have ho : offset = b.offset + 1 := by simp [offset, hbit, h0]
        rw [ho, h0]
        rw [h0] at this
        simp [Bytes.offset] at this ⊢
        omega
      · have ho : offset = b.offset := by simp [offset, hbit, h0]
        rw [ho]
        rw [if_neg h0] at this
        simp [Nat.pos_of_ne_zero h0, Bytes.push, Bytes.offset]
        omega
  | case8 s h8 hno =>
    intro k hf
    exact absurd (patterns_get asm _ hf.2.2) (by
      rw [← hf.1]
      intro e
      exact hno _ _ e (by rw [hf.2.1]; exact masks_get asm _ hf.2.2))

theorem past_fill (b : Bytes) (n k : Nat) (h : Past b k) :
    match b.fill n with
    | (.ok _, _, b') => Past b' k ∧ (b.cache ≠ [] → 0 < n → Past b' (k + 1))
    | (.error _, _, b') => Past b' k := by
  unfold Past at *
  unfold Bytes.fill
  by_cases hc : b.cache = []
  · simp only [hc, List.isEmpty_nil, if_true]
    cases hr : b.reader.readExact n with
    | mk e rest =>
      obtain ⟨got, r'⟩ := rest
      simp only [hc, List.length_nil] at h
      cases e with
      | some kk =>
        by_cases hk : kk = .unexpectedEof
        · simp [hk, hc]; omega
        · simp [hk, hc]; omega
      | none => simp [hc]; omega
  · have : b.cache.isEmpty = false := by simpa using hc
    simp only [this, Bool.false_eq_true, if_false]
    by_cases hl : b.cache.length < n
    · rw [if_pos hl]
      cases hr : b.reader.readExact (n - b.cache.length) with
      | mk e rest =>
        obtain ⟨got, r'⟩ := rest
        cases e with
        | some kk => simpa using h
        | none => simp; omega
    · rw [if_neg hl]
      simp only [List.length_drop]
      refine ⟨by omega, fun _ _ => by omega⟩

/-- `scan` leaves a byte in the cache when the marker is not byte-aligned. -/
theorem scan_cache (s s' : State) (loc : Loc) (h : scan s = .ret (.ok (some loc), s')) : s'.patternIdx ≠ 0 → s'.bytes.cache ≠ [] := by
  fun_induction scan s with
  | case1 => simp at h
  | case2 => simp at h
  | case3 => simp at h
  | case4 s h8 pat mask e1 e2 w b hat h7 ih => exact ih h
  | case5 s h8 pat mask e1 e2 w b hat h7 ih => exact ih h
  | case6 => simp at h
  | case7 s h8 pat mask e1 e2 w b hat hlt bit offset bb b' =>
    simp only [Outcome.ret.injEq, Prod.mk.injEq] at h
    obtain ⟨_, rfl⟩ := h
    intro h0
    show (if s.patternIdx > 0 then b.push [bb] else b).cache ≠ []
    rw [if_pos (Nat.pos_of_ne_zero h0)]
    simp [Bytes.push]
  | case8 => simp at h

theorem block_safe (asm : List U8) (s : State) (k : Nat) (hf : For asm s) (h : Past s.bytes k) (hc : s.patternIdx ≠ 0 → s.bytes.cache ≠ []) :
    For asm (block s).2 ∧ Past (block s).2.bytes k ∧ (block s).2.patternIdx = s.patternIdx := by
  unfold block
  by_cases h0 : s.patternIdx = 0
  · simp only [h0, ne_eq, not_true_eq_false, if_false]
    have := past_fill s.bytes s.blockSize k h
    cases hr : s.bytes.fill s.blockSize with
    | mk e rest =>
      obtain ⟨buf, b'⟩ := rest
      rw [hr] at this
      cases e with
      | error kk => exact ⟨⟨hf.1, hf.2.1, by simp⟩, this, rfl⟩
      | ok t => exact ⟨⟨hf.1, hf.2.1, by simp⟩, this.1, rfl⟩
  · simp only [ne_eq, h0, not_false_eq_true, if_true]
    have := past_fill s.bytes (s.blockSize + 1) k h
    cases hr : s.bytes.fill (s.blockSize + 1) with
    | mk e rest =>
      obtain ⟨buf, b'⟩ := rest
      rw [hr] at this
      cases e with
      | error kk => exact ⟨⟨hf.1, hf.2.1, by simpa using hf.2.2⟩, this, rfl⟩
      | ok t =>
        exact ⟨⟨hf.1, hf.2.1, by simpa using hf.2.2⟩, past_push (d := [_]) (this.2 (hc h0) (by omega)), rfl⟩

/-- Invariant of the iterator on an arbitrary reader. -/
def Safe (asm : List U8) (s : Iter) : Prop := For asm s.scanner ∧ Past s.scanner.bytes (s.last - 1)

theorem next_safe (asm : List U8) (s : Iter) (h : Safe asm s) : ∃ res s', next s = .ret (res, s') ∧ Safe asm s' := by
  obtain ⟨res, sc, e, hf, hp, hl⟩ := scan_safe asm s.scanner _ h.1 h.2
  unfold next
  rw [e]
  match res, e, hl with
  | .error er, e, hl => exact ⟨_, _, rfl, hf, hp⟩
  | .ok none, e, hl => exact ⟨_, _, rfl, hf, hp⟩
  | .ok (some loc), e, hl =>
    obtain ⟨h1, h2⟩ := hl loc rfl
    simp only
    rw [if_neg (by omega)]
    have hb := block_safe asm sc _ hf h2 (scan_cache _ _ _ e)
    cases hbl : block sc with
    | mk r sc' =>
      rw [hbl] at hb
      cases r with
      | ok d => exact ⟨_, _, rfl, hb.1, hb.2.1⟩
      | error er => exact ⟨_, _, rfl, hb.1, hb.2.1⟩

theorem iter_safe (r : Reader) (asm : List U8) (len : Nat) : Safe asm (iter r asm len) :=
  ⟨⟨rfl, rfl, by simp [iter, new, State.withAsm]⟩, by simp [Past, iter, new, State.withAsm, Bytes.new]⟩

theorem run_safe (asm : List U8) (s : Iter) (items : List (Except Error Block)) (e : Option Iter) (h : Safe asm s) (hc : Collects next s items e) :
    e ≠ none := by
  induction hc with
  | done h => simp
  | panicked hp =>
    obtain ⟨res, s', e, _⟩ := next_safe asm _ h
    rw [hp] at e; simp at e
  | step hs _ ih =>
    obtain ⟨res, s', e, hs'⟩ := next_safe asm _ h
    rw [hs] at e
    simp only [Outcome.ret.injEq, Prod.mk.injEq] at e
    obtain ⟨_, rfl⟩ := e
    exact ih hs'

/-- With an empty marker every call yields an item. -/
theorem next_empty (s : Iter) (h : Safe [] s) (h0 : s.scanner.patternIdx = 0) :
    ∃ it s', next s = .ret (some it, s') ∧ Safe [] s' ∧ s'.scanner.patternIdx = 0 := by
  obtain ⟨res, s', e, hs'⟩ := next_safe [] s h
  have hsc : ∃ loc sc, scan s.scanner = .ret (.ok (some loc), sc) ∧ sc.patternIdx = 0 := by
    have hp : s.scanner.patterns[s.scanner.patternIdx]? = some [] := by rw [h.1.1, h0]; rfl
    have hm : s.scanner.masks[s.scanner.patternIdx]? = some [] := by rw [h.1.2.1, h0]; rfl
    have hpast := h.2
    unfold Past at hpast
    rw [scan, dif_neg (by omega)]
    simp only [hp, hm, List.zip_nil_left]
    split <;> rename_i heq <;> simp only [List.zip_nil_left, attempt, reduceCtorEq, Attempt.found.injEq] at heq
    obtain ⟨rfl, rfl⟩ := heq
    rw [if_neg (by omega)]
    exact ⟨_, _, rfl, h0⟩
  obtain ⟨loc, sc, hsc, hi⟩ := hsc
  obtain ⟨res', sc', e2, hf, hp, hl⟩ := scan_safe [] s.scanner _ h.1 h.2
  rw [hsc] at e2
  simp only [Outcome.ret.injEq, Prod.mk.injEq] at e2
  obtain ⟨rfl, rfl⟩ := e2
  obtain ⟨h1, h2⟩ := hl loc rfl
  have hb := block_safe [] sc _ hf h2 (scan_cache _ _ _ hsc)
  rw [e]
  unfold next at e
  rw [hsc] at e
  simp only at e
  rw [if_neg (by omega)] at e
  cases hbl : block sc with
  | mk r sc' =>
    rw [hbl] at hb e
    cases r with
    | ok d =>
      simp only [Outcome.ret.injEq, Prod.mk.injEq] at e
      obtain ⟨rfl, rfl⟩ := e
      exact ⟨_, _, rfl, hs', by simpa [hi] using hb.2.2⟩
    | error er =>
      simp only [Outcome.ret.injEq, Prod.mk.injEq] at e
      obtain ⟨rfl, rfl⟩ := e
      exact ⟨_, _, rfl, hs', by simpa [hi] using hb.2.2⟩

theorem run_empty (s : Iter) (items : List (Except Error Block)) (e : Option Iter) (h : Safe [] s) (h0 : s.scanner.patternIdx = 0) :
    ¬ Collects next s items e := by
  intro hc
  induction hc with
  | done hd =>
    obtain ⟨it, s', e, _⟩ := next_empty _ h h0
    rw [hd] at e; simp at e
  | panicked hp =>
    obtain ⟨it, s', e, _⟩ := next_empty _ h h0
    rw [hp] at e; simp at e
  | step hs _ ih =>
    obtain ⟨it, s', e, h1, h2⟩ := next_empty _ h h0
    rw [hs] at e
    simp only [Outcome.ret.injEq, Prod.mk.injEq] at e
    obtain ⟨_, rfl⟩ := e
    exact ih h1 h2

end Sync
end Ccsds

namespace Ccsds
open Spec
namespace Sync

/-- The reader never reports end of file. -/
def Endless (r : Reader) : Prop := (∀ e ∈ r.script, e ≠ .data [] ∧ e ≠ .err .unexpectedEof) ∧ r.tail ≠ .eof

theorem endless_read {r : Reader} (h : Endless r) :
    (∀ k r', r.read 1 = (.error k, r') → k ≠ .unexpectedEof ∧ Endless r') ∧ (∀ bs r', r.read 1 = (.ok bs, r') → bs ≠ [] ∧ Endless r') := by
  obtain ⟨h1, h2⟩ := h
  unfold Reader.read
  cases hs : r.script with
  | nil =>
    cases ht : r.tail with
    | eof => exact absurd ht h2
    | fail c =>
      constructor
      · intro k r' e
        simp only [Prod.mk.injEq, Except.error.injEq] at e
        obtain ⟨rfl, rfl⟩ := e
        exact ⟨by simp, by simp [hs], by simp [ht]⟩
      · intro bs r' e; simp at e
  | cons ev rest =>
    rw [hs] at h1
    have hrest : ∀ e ∈ rest, e ≠ .data [] ∧ e ≠ .err .unexpectedEof := fun e he => h1 e (List.mem_cons_of_mem _ he)
    cases ev with
    | err k0 =>
      constructor
      · intro k r' e
        simp only [Prod.mk.injEq, Except.error.injEq] at e
        obtain ⟨rfl, rfl⟩ := e
        refine ⟨?_, hrest, h2⟩
        intro hk; subst hk; exact (h1 _ List.mem_cons_self).2 rfl
      · intro bs r' e; simp at e
    | data c =>
      have hc : c ≠ [] := by intro hc; subst hc; exact (h1 _ List.mem_cons_self).1 rfl
      constructor
      · intro k r' e; simp only at e; split at e <;> simp at e
      · intro bs r' e
        simp only at e
        split at e
        · simp only [Prod.mk.injEq, Except.ok.injEq] at e
          obtain ⟨rfl, rfl⟩ := e
          exact ⟨hc, hrest, h2⟩
        · rename_i hl
          simp only [Prod.mk.injEq, Except.ok.injEq] at e
          obtain ⟨rfl, rfl⟩ := e
          refine ⟨by simpa using hc, ?_, h2⟩
          intro e he
          rcases List.mem_cons.1 he with rfl | he
          · refine ⟨?_, by simp⟩
            simp only [ne_eq, Ev.data.injEq, List.drop_eq_nil_iff]; exact hl
          · exact hrest e he

theorem endless_readExactGo (t : Tail) (ht : t ≠ .eof) (es : List Ev) (n : Nat) (acc : List U8) (h : ∀ e ∈ es, e ≠ .data [] ∧ e ≠ .err .unexpectedEof) :
    (Reader.readExactGo t es n acc).1 ≠ some .unexpectedEof ∧ ∀ e ∈ (Reader.readExactGo t es n acc).2.2, e ≠ .data [] ∧ e ≠ .err .unexpectedEof := by
  fun_induction Reader.readExactGo t es n acc with
  | case1 => exact ⟨by simp, h⟩
  | case2 => simp_all
  | case3 => exact ⟨by simp, by simp⟩
  | case4 n acc rest ih => exact ih fun e he => h e (List.mem_cons_of_mem _ he)
  | case5 n acc k rest hk =>
    refine ⟨?_, fun e he => h e (List.mem_cons_of_mem _ he)⟩
    simp only [ne_eq, Option.some.injEq]
    intro e; subst e; exact (h _ List.mem_cons_self).2 rfl
  | case6 => exact absurd rfl (h _ List.mem_cons_self).1
  | case7 bs rest n acc h1 h2 ih => exact ih fun e he => h e (List.mem_cons_of_mem _ he)
  | case8 bs rest n acc h1 h2 =>
    refine ⟨by simp, ?_⟩
    intro e he
    rcases List.mem_cons.1 he with rfl | he
    · exact ⟨by simp; omega, by simp⟩
    · exact h e (List.mem_cons_of_mem _ he)

theorem endless_readExact {r r' : Reader} {n : Nat} {got : List U8} {e : Option IoKind} (h : Endless r) (hr : r.readExact n = (e, got, r')) : Endless r' := by
  have := endless_readExactGo r.tail h.2 r.script n [] h.1
  have e : r' = (r.readExact n).2.2 := by rw [hr]
  rw [e]
  exact ⟨this.2, h.2⟩

theorem endless_next {b b' : Bytes} {res : Except IoKind U8} (h : Endless b.reader) (e : b.next = (res, b')) :
    Endless b'.reader ∧ res ≠ .error .unexpectedEof := by
  unfold Bytes.next at e
  cases hc : b.cache.getLast? with
  | some y =>
    rw [hc] at e
    simp only [Prod.mk.injEq] at e
    obtain ⟨rfl, rfl⟩ := e
    exact ⟨h, by simp⟩
  | none =>
    rw [hc] at e
    have hr := endless_read h
    simp only at e
    split at e
    · rename_i k r heq
      simp only [Prod.mk.injEq] at e
      obtain ⟨rfl, rfl⟩ := e
      have := hr.1 _ _ heq
      exact ⟨this.2, by simpa using this.1⟩
    · rename_i r heq
      exact absurd rfl (hr.2 _ _ heq).1
    · rename_i x y r heq
      simp only [Prod.mk.injEq] at e
      obtain ⟨rfl, rfl⟩ := e
      exact ⟨(hr.2 _ _ heq).2, by simp⟩

theorem endless_attempt (pm : List (U8 × U8)) : ∀ (w : List U8) (b : Bytes), Endless b.reader →
    match attempt pm w b with
    | .io k b' => k ≠ .unexpectedEof ∧ Endless b'.reader
    | .mismatch _ b' => Endless b'.reader
    | .found _ b' => Endless b'.reader := by
  induction pm with
  | nil => intro w b h; simpa [attempt] using h
  | cons e pm ih =>
    obtain ⟨p, m⟩ := e
    intro w b h
    rw [attempt]
    cases hn : b.next with
    | mk res b' =>
      have := endless_next h hn
      cases res with
      | error kk => exact ⟨by intro e; exact this.2 (by rw [e]), this.1⟩
      | ok x =>
        simp only
        by_cases hm : x &&& m ≠ p
        · rw [if_pos hm]; exact this.1
        · rw [if_neg hm]; exact ih _ _ this.1

theorem endless_scan (s s' : State) (res : Except Error (Option Loc)) (h : Endless s.bytes.reader) (hs : scan s = .ret (res, s')) :
    res ≠ .ok none ∧ Endless s'.bytes.reader := by
  fun_induction scan s with
  | case1 => simp at hs
  | case2 s h8 pat mask e1 e2 b hat =>
    have := endless_attempt (pat.zip mask) [] s.bytes h
    rw [hat] at this
    exact absurd rfl this.1
  | case3 s h8 pat mask e1 e2 kk b hat hk =>
    have := endless_attempt (pat.zip mask) [] s.bytes h
    rw [hat] at this
    simp only [Outcome.ret.injEq, Prod.mk.injEq] at hs
    obtain ⟨rfl, rfl⟩ := hs
    exact ⟨by simp, this.2⟩
  | case4 s h8 pat mask e1 e2 w b hat h7 ih =>
    have := endless_attempt (pat.zip mask) [] s.bytes h
    rw [hat] at this
    exact ih this hs
  | case5 s h8 pat mask e1 e2 w b hat h7 ih =>
    have := endless_attempt (pat.zip mask) [] s.bytes h
    rw [hat] at this
    exact ih this hs
  | case6 => simp at hs
  | case7 s h8 pat mask e1 e2 w b hat hlt bit offset bb b' =>
    have := endless_attempt (pat.zip mask) [] s.bytes h
    rw [hat] at this
    simp only [Outcome.ret.injEq, Prod.mk.injEq] at hs
    obtain ⟨rfl, rfl⟩ := hs
    refine ⟨by simp, ?_⟩
    show Endless (if s.patternIdx > 0 then b.push [bb] else b).reader
    split
    · exact this
    · exact this
  | case8 => simp at hs

theorem endless_fill (b : Bytes) (n : Nat) (h : Endless b.reader) : Endless (b.fill n).2.2.reader := by
  unfold Bytes.fill
  split
  · cases hr : b.reader.readExact n with
    | mk e rest =>
      obtain ⟨got, r'⟩ := rest
      have := endless_readExact h hr
      cases e with
      | some k => simp only; split <;> exact this
      | none => exact this
  · split
    · cases hr : b.reader.readExact (n - b.cache.length) with
      | mk e rest =>
        obtain ⟨got, r'⟩ := rest
        have := endless_readExact h hr
        cases e with
        | some k => exact this
        | none => exact this
    · exact h

theorem endless_block (s : State) (h : Endless s.bytes.reader) : Endless (block s).2.bytes.reader := by
  unfold block
  have := endless_fill s.bytes (if s.patternIdx ≠ 0 then s.blockSize + 1 else s.blockSize) h
  simp only
  revert this
  cases s.bytes.fill (if s.patternIdx ≠ 0 then s.blockSize + 1 else s.blockSize) with
  | mk e rest =>
    obtain ⟨buf, b'⟩ := rest
    intro this
    cases e with
    | error k => exact this
    | ok t => simp only; split <;> exact this

theorem endless_run (s : Iter) (items : List (Except Error Block)) (sf : Iter) (h : Endless s.scanner.bytes.reader) :
    ¬ Collects next s items (some sf) := by
  intro hc
  generalize hsf : some sf = e at hc
  induction hc with
  | panicked => simp at hsf
  | done hd =>
    rename_i s s'
    unfold next at hd
    cases hs : scan s.scanner with
    | panic => rw [hs] at hd; simp at hd
    | ret x =>
      obtain ⟨res, sc⟩ := x
      have := endless_scan _ _ _ h hs
      rw [hs] at hd
      match res, this with
      | .ok none, this => exact this.1 rfl
      | .error e, this => simp at hd
      | .ok (some loc), this =>
        simp only at hd
        split at hd
        · simp at hd
        · split at hd <;> simp at hd
  | step hst _ ih =>
    rename_i s s' a as e _
    refine ih ?_ hsf
    unfold next at hst
    cases hs : scan s.scanner with
    | panic => rw [hs] at hst; simp at hst
    | ret x =>
      obtain ⟨res, sc⟩ := x
      have := endless_scan _ _ _ h hs
      rw [hs] at hst
      match res, this with
      | .ok none, this => exact absurd rfl this.1
      | .error e, this =>
        simp only [Outcome.ret.injEq, Prod.mk.injEq] at hst
        rw [← hst.2]; exact this.2
      | .ok (some loc), this =>
        have hb := endless_block sc this.2
        simp only at hst
        split at hst
        · simp at hst
        · cases hbl : block sc with
          | mk r sc' =>
            rw [hbl] at hst hb
            cases r with
            | ok d =>
              simp only [Outcome.ret.injEq, Prod.mk.injEq] at hst
              rw [← hst.2]; exact hb
            | error er =>
              simp only [Outcome.ret.injEq, Prod.mk.injEq] at hst
              rw [← hst.2]; exact hb

end Sync
end Ccsds
