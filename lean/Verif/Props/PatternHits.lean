import Verif.Model.PatternHits
import Verif.Props.Sync
/-!
# C103: counting markers does not get in the way of finding them
-/
namespace Ccsds
open Spec

namespace Sync.Hits

/-- The value of a counter, as a number -/
def val (h : Counts) (k : U8) : Nat := ((h.get? k).map BitVec.toNat).getD 0

theorem inc_unchecked {b : Build} (h : b.overflowChecks = false) (x : BitVec 32) : inc b x = .ret (x + 1#32) := by
  simp [inc, h]

theorem inc_small {b : Build} {x : BitVec 32} (h : x.toNat < 2147483647) : inc b x = .ret (x + 1#32) ∧ (x + 1#32).toNat = x.toNat + 1 := by
  refine ⟨?_, ?_⟩
  · unfold inc
    have : x ≠ 0x7fffffff#32 := by intro e; subst e; simp at h
    simp [this]
  · rw [BitVec.toNat_add]
    simp
    omega

theorem count_unchecked {b : Build} (h : b.overflowChecks = false) (c : Counts) (k : U8) : ∃ c', count b c k = .ret c' := by
  unfold count
  cases c.get? k with
  | none => exact ⟨_, rfl⟩
  | some x => simp only [inc_unchecked h]; exact ⟨_, rfl⟩

theorem count_small {b : Build} {c : Counts} {k : U8} (h : val c k < 2147483647) :
    ∃ c', count b c k = .ret c' ∧ ∀ k', val c' k' = val c k' + if k = k' then 1 else 0 := by
  unfold count val at *
  cases hg : c.get? k with
  | none =>
    refine ⟨_, rfl, fun k' => ?_⟩
    rw [HMap.get?_insert]
    by_cases hk : k = k'
    · subst hk; simp [hg]
    · simp [hk]
  | some x =>
    rw [hg] at h
    simp only [Option.map_some, Option.getD_some] at h
    obtain ⟨h1, h2⟩ := inc_small (b := b) h
    simp only [h1]
    refine ⟨_, rfl, fun k' => ?_⟩
    rw [HMap.get?_insert]
    by_cases hk : k = k'
    · subst hk; simp only [if_true, Option.map_some, Option.getD_some, hg]; exact h2
    · simp [hk]

/-- With overflow checks the counter that has reached its greatest value cannot be counted up. -/
theorem count_full {b : Build} (hb : b.overflowChecks = true) {c : Counts} {k : U8} (h : val c k = 2147483647) : count b c k = .panic := by
  unfold count val at *
  cases hg : c.get? k with
  | none => rw [hg] at h; simp at h
  | some x =>
    rw [hg] at h
    simp only [Option.map_some, Option.getD_some] at h
    have : x = 0x7fffffff#32 := BitVec.eq_of_toNat_eq (by rw [h]; rfl)
    subst this
    simp [inc, hb]

/-- The bit position a pattern stands for -/
def bitOf (idx : Nat) : U8 := BitVec.ofNat 8 ((8 - idx) % 8)

theorem scan_found (s : Sync.State) : ∀ loc sc, scan s = .ret (.ok (some loc), sc) → sc.patternIdx < 8 ∧ loc.bit = bitOf sc.patternIdx := by
  fun_induction scan s <;> intro loc sc h <;> first | cases h | skip
  all_goals first
    | (rename_i ih; exact ih loc sc h)
    | skip
  rename_i h8 _ _ _ _ _ _ _ _ _ _ _ _
  exact ⟨by simpa using h8, rfl⟩

/-- One call of `next` with and without counters -/
theorem next_of (b : Build) (s : State) {x : Option (Except Error Block)} {it : Iter} (h : Sync.next s.iter = .ret (x, it)) :
    (next b s = .ret (x, ⟨it, s.hits⟩) ∧ ∀ bk, x ≠ some (.ok bk)) ∨
    ∃ idx, idx < 8 ∧ x ≠ none ∧ (∀ bk, x = some (.ok bk) → bk.loc.bit = bitOf idx) ∧ next b s = (count b s.hits (BitVec.ofNat 8 idx) >>= fun c => .ret (x, ⟨it, c⟩)) := by
  unfold Sync.next at h
  unfold next
  rcases hs : scan s.iter.scanner with ⟨r, sc⟩ | _
  · rw [hs] at h
    rcases r with e | o
    · simp only at h ⊢
      cases h
      exact .inl ⟨rfl, by simp⟩
    · cases o with
      | none =>
        simp only at h ⊢
        cases h
        exact .inl ⟨rfl, by simp⟩
      | some loc =>
        simp only at h ⊢
        obtain ⟨h8, hb⟩ := scan_found _ _ _ hs
        right
        refine ⟨sc.patternIdx, h8, ?_, ?_, ?_⟩
        · rintro rfl
          split at h
          · cases h
          · split at h <;> cases h
        · intro bk hx
          subst hx
          split at h
          · cases h
          · split at h
            · cases h; exact hb
            · cases h
        · by_cases hl : s.iter.last ≠ 0 ∧ loc.offset < s.iter.last
          · rw [if_pos hl] at h; cases h
          · rw [if_neg hl] at h
            cases hk : block sc with
            | mk r2 sc2 =>
              rw [hk] at h
              cases r2 with
              | error e => cases h; simp only [if_neg hl]
              | ok d => cases h; simp only [if_neg hl]
  · rw [hs] at h; cases h

theorem next_panic (b : Build) (s : State) (h : Sync.next s.iter = .panic) : next b s = .panic := by
  unfold Sync.next at h
  unfold next
  rcases hs : scan s.iter.scanner with ⟨r, sc⟩ | _
  · rw [hs] at h
    rcases r with e | o
    · simp only at h; cases h
    · cases o with
      | none => simp only at h; cases h
      | some loc =>
        simp only at h ⊢
        by_cases hl : s.iter.last ≠ 0 ∧ loc.offset < s.iter.last
        · cases count b s.hits (BitVec.ofNat 8 sc.patternIdx) with
          | panic => rfl
          | ret c => simp only [Outcome.ret_bind, if_pos hl]
        · rw [if_neg hl] at h
          cases hk : block sc with
          | mk r2 sc2 => rw [hk] at h; cases r2 <;> cases h
  · rfl

/-- Without overflow checks the counters make no difference. -/
theorem collects_unchecked {b : Build} (hb : b.overflowChecks = false) {it : Iter} {items : List (Except Error Block)} {e : Option Iter}
    (h : Collects Sync.next it items e) : ∀ c, ∃ e', Collects (next b) ⟨it, c⟩ items e' ∧ e'.map State.iter = e := by
  induction h with
  | @done it it' k =>
    intro c
    rcases next_of b ⟨it, c⟩ k with ⟨h1, _⟩ | ⟨idx, _, hx, _, h1⟩
    · exact ⟨_, .done h1, rfl⟩
    · exact absurd rfl hx
  | panicked k => intro c; exact ⟨none, .panicked (next_panic b ⟨_, c⟩ k), rfl⟩
  | @step it it' a as e k _ ih =>
    intro c
    rcases next_of b ⟨it, c⟩ k with ⟨h1, _⟩ | ⟨idx, _, hx, _, h1⟩
    · obtain ⟨e', h2, h3⟩ := ih c
      exact ⟨e', .step h1 h2, h3⟩
    · obtain ⟨c', hc⟩ := count_unchecked hb c (BitVec.ofNat 8 idx)
      simp only [hc, Outcome.ret_bind] at h1
      obtain ⟨e', h2, h3⟩ := ih c'
      exact ⟨e', .step h1 h2, h3⟩

/-- Nor do they as long as there are fewer than `2^31` items. -/
theorem collects_small (b : Build) {it : Iter} {items : List (Except Error Block)} {e : Option Iter} (h : Collects Sync.next it items e) :
    ∀ c, (∀ k, val c k + items.length ≤ 2147483647) → ∃ e', Collects (next b) ⟨it, c⟩ items e' ∧ e'.map State.iter = e := by
  induction h with
  | @done it it' k =>
    intro c hv
    rcases next_of b ⟨it, c⟩ k with ⟨h1, _⟩ | ⟨idx, _, hx, _, h1⟩
    · exact ⟨_, .done h1, rfl⟩
    · exact absurd rfl hx
  | panicked k => intro c _; exact ⟨none, .panicked (next_panic b ⟨_, c⟩ k), rfl⟩
  | @step it it' a as e k _ ih =>
    intro c hv
    rcases next_of b ⟨it, c⟩ k with ⟨h1, _⟩ | ⟨idx, _, hx, _, h1⟩
    · obtain ⟨e', h2, h3⟩ := ih c (fun k => by have := hv k; simp only [List.length_cons] at this; omega)
      exact ⟨e', .step h1 h2, h3⟩
    · obtain ⟨c', hc, hv'⟩ := count_small (b := b) (c := c) (k := BitVec.ofNat 8 idx) (by have := hv (BitVec.ofNat 8 idx); simp only [List.length_cons] at this; omega)
      simp only [hc, Outcome.ret_bind] at h1
      obtain ⟨e', h2, h3⟩ := ih c' (fun k => by
        have := hv k
        have h2 := hv' k
        simp only [List.length_cons] at this
        split at h2 <;> omega)
      exact ⟨e', .step h1 h2, h3⟩

/-- The number of blocks at one alignment -/
def okAt (bit : U8) (items : List (Except Error Block)) : Nat := ((oks items).filter fun bk => decide (bk.loc.bit = bit)).length

theorem okAt_cons (bit : U8) (a : Except Error Block) (as : List (Except Error Block)) :
    okAt bit (a :: as) = okAt bit as + match a with | .ok bk => if bk.loc.bit = bit then 1 else 0 | .error _ => 0 := by
  unfold okAt oks
  cases a with
  | error e => rfl
  | ok bk =>
    show (List.filter _ (bk :: oks as)).length = (List.filter _ (oks as)).length + _
    rw [List.filter_cons]
    by_cases h : bk.loc.bit = bit
    · simp [h]
    · simp [h]

theorem bitOf_inj : ∀ (i j : Nat), i < 8 → j < 8 → bitOf i = bitOf j → i = j := by
  have : ∀ (i j : Fin 8), bitOf i.1 = bitOf j.1 → i = j := by decide
  intro i j hi hj h
  exact congrArg Fin.val (this ⟨i, hi⟩ ⟨j, hj⟩ h)

theorem count_val {b : Build} (hb : b.overflowChecks = true) {c c' : Counts} {k : U8} (hv : ∀ k, val c k ≤ 2147483647) (h : count b c k = .ret c') :
    (∀ k', val c' k' = val c k' + if k = k' then 1 else 0) ∧ ∀ k, val c' k ≤ 2147483647 := by
  have hlt : val c k < 2147483647 := by
    rcases Nat.lt_or_eq_of_le (hv k) with h1 | h1
    · exact h1
    · rw [count_full hb h1] at h; cases h
  obtain ⟨c'', h1, h2⟩ := count_small (b := b) hlt
  rw [h1] at h
  cases h
  refine ⟨h2, fun k' => ?_⟩
  rw [h2 k']
  split
  · rename_i hk; subst hk; omega
  · exact hv k'

/-- With overflow checks, no more than `2^31 - 1` blocks of one alignment come out. -/
theorem takes_bound {b : Build} (hb : b.overflowChecks = true) {s t : State} {items : List (Except Error Block)} (h : Takes (next b) s items t)
    (hs : ∀ k, val s.hits k ≤ 2147483647) (idx : Nat) (hi : idx < 8) : okAt (bitOf idx) items + val s.hits (BitVec.ofNat 8 idx) ≤ 2147483647 := by
  induction h with
  | nil => simpa [okAt, oks] using hs _
  | @cons s s' t a as k _ ih =>
    cases hn : Sync.next s.iter with
    | panic => rw [next_panic b s hn] at k; cases k
    | ret y =>
      obtain ⟨x, it⟩ := y
      rw [okAt_cons]
      rcases next_of b s hn with ⟨h1, h2⟩ | ⟨j, hj, hx, h2, h1⟩
      · rw [h1] at k
        cases k
        have := ih hs
        cases a with
        | ok bk => exact absurd rfl (h2 bk)
        | error e => simpa using this
      · cases hc : count b s.hits (BitVec.ofNat 8 j) with
        | panic => rw [hc] at h1; rw [h1] at k; cases k
        | ret c =>
          rw [hc, Outcome.ret_bind] at h1
          rw [h1] at k
          cases k
          obtain ⟨v1, v2⟩ := count_val hb hs hc
          have := ih v2
          simp only [v1] at this
          cases a with
          | error e => simp only; split at this <;> omega
          | ok bk =>
            simp only [h2 bk rfl]
            by_cases hij : bitOf j = bitOf idx
            · obtain rfl := bitOf_inj j idx hj hi hij
              simp only [if_true] at this ⊢
              omega
            · rw [if_neg hij]
              split at this <;> omega

/-- The run with counters goes with the run without, until it panics. -/
theorem takes_or_panics (b : Build) {it t : Iter} {items : List (Except Error Block)} (h : Takes Sync.next it items t) :
    ∀ c, (∃ t', Takes (next b) ⟨it, c⟩ items t' ∧ t'.iter = t) ∨ ∃ pre, pre <+: items ∧ pre ≠ items ∧ Collects (next b) ⟨it, c⟩ pre none := by
  induction h with
  | nil => intro c; exact .inl ⟨_, .nil, rfl⟩
  | @cons s s' t a as k _ ih =>
    intro c
    have go : ∀ c', next b ⟨s, c⟩ = .ret (some a, ⟨s', c'⟩) → _ := fun c' h1 => show (∃ t', Takes (next b) ⟨s, c⟩ (a :: as) t' ∧ t'.iter = t) ∨
        ∃ pre, pre <+: a :: as ∧ pre ≠ a :: as ∧ Collects (next b) ⟨s, c⟩ pre none from by
      rcases ih c' with ⟨t', h2, h3⟩ | ⟨pre, h2, h3, h4⟩
      · exact .inl ⟨t', .cons h1 h2, h3⟩
      · exact .inr ⟨a :: pre, List.prefix_cons_inj a |>.2 h2, by simpa using h3, .step h1 h4⟩
    rcases next_of b ⟨s, c⟩ k with ⟨h1, _⟩ | ⟨idx, _, _, _, h1⟩
    · exact go c h1
    · cases hc : count b c (BitVec.ofNat 8 idx) with
      | panic =>
        simp only [hc] at h1
        exact .inr ⟨[], List.nil_prefix, by simp, .panicked h1⟩
      | ret c' =>
        simp only [hc] at h1
        exact go c' h1

end Sync.Hits

/-- C103, the full statement: `synchronize` never panics, whatever the stream, the marker and the build. -/
def C103_full : Prop := ∀ (b : Build) (r : Reader) (asm : List U8) (len : Nat) (items : List (Except Error Block)) (e : Option Sync.Hits.State),
  Collects (Sync.Hits.next b) (Sync.Hits.start r asm len) items e → e ≠ none

/-- C103: in a build without overflow checks the counters never make a difference, -/
theorem C103_unchecked (b : Build) (hb : b.overflowChecks = false) (r : Reader) (asm : List U8) (len : Nat) (items : List (Except Error Block)) (e : Option Sync.Iter)
    (h : Collects Sync.next (Sync.iter r asm len) items e) : ∃ e', Collects (Sync.Hits.next b) (Sync.Hits.start r asm len) items e' ∧ e'.map Sync.Hits.State.iter = e :=
  Sync.Hits.collects_unchecked hb h []

/-- C103: and in any build not with fewer than `2^31` blocks and errors. -/
theorem C103_partial (b : Build) (r : Reader) (asm : List U8) (len : Nat) (items : List (Except Error Block)) (e : Option Sync.Iter)
    (h : Collects Sync.next (Sync.iter r asm len) items e) (hn : items.length < 2 ^ 31) :
    ∃ e', Collects (Sync.Hits.next b) (Sync.Hits.start r asm len) items e' ∧ e'.map Sync.Hits.State.iter = e := by
  refine Sync.Hits.collects_small b h [] (fun k => ?_)
  show 0 + items.length ≤ 2147483647
  omega

/-- C103: with overflow checks, a stream that holds `2^31` blocks at one alignment makes the iterator panic before it has handed them all out. -/
theorem C103_panics (b : Build) (hb : b.overflowChecks = true) (r : Reader) (asm : List U8) (len : Nat) (items : List (Except Error Block)) (t : Sync.Iter)
    (h : Takes Sync.next (Sync.iter r asm len) items t) (shift : Nat) (hs : shift < 8)
    (hn : 2 ^ 31 ≤ ((oks items).filter fun bk => decide (bk.loc.bit = BitVec.ofNat 8 shift)).length) :
    ∃ pre, pre <+: items ∧ pre ≠ items ∧ Collects (Sync.Hits.next b) (Sync.Hits.start r asm len) pre none := by
  rcases Sync.Hits.takes_or_panics b h [] with ⟨t', h1, _⟩ | h1
  · exfalso
    have := Sync.Hits.takes_bound hb h1 (fun k => by show 0 ≤ _; omega) ((8 - shift) % 8) (by omega)
    have e : Sync.Hits.bitOf ((8 - shift) % 8) = BitVec.ofNat 8 shift := by
      unfold Sync.Hits.bitOf
      have : (8 - (8 - shift) % 8) % 8 = shift := by omega
      rw [this]
    rw [e] at this
    unfold Sync.Hits.okAt at this
    omega
  · exact h1

/-! Concrete: markers, each with a block of one byte. -/
namespace PatternHitsEx

def reader (n : Nat) : Reader := ⟨List.replicate n (.data [0x1a#8, 0xcf#8, 0xfc#8, 0x1d#8, 7#8]), .eof⟩
def state (n m last : Nat) : Sync.Iter := ⟨⟨⟨reader n, m, []⟩, 1, Sync.patterns Sync.ASM, Sync.masks Sync.ASM, 0⟩, last⟩

theorem step (n m last : Nat) (hl : last ≤ m + 5) : ∃ l, Sync.next (state (n + 1) m last) = .ret (some (.ok ⟨l, ⟨m + 5, 0#8⟩, [7#8]⟩), state n (m + 5) (m + 5)) := by
  have hs : Sync.scan (state (n + 1) m last).scanner = .ret (.ok (some ⟨m + 5, 0#8⟩),
      ⟨⟨⟨.data [7#8] :: List.replicate n (.data [0x1a#8, 0xcf#8, 0xfc#8, 0x1d#8, 7#8]), .eof⟩, m + 4, []⟩, 1, Sync.patterns Sync.ASM, Sync.masks Sync.ASM, 0⟩) := by
    have hat : Sync.attempt (Sync.ASM.zip (List.replicate Sync.ASM.length 0xff#8)) [] (state (n + 1) m last).scanner.bytes =
        .found Sync.ASM ⟨⟨.data [7#8] :: List.replicate n (.data [0x1a#8, 0xcf#8, 0xfc#8, 0x1d#8, 7#8]), .eof⟩, m + 4, []⟩ := rfl
    rw [Sync.scan]
    split
    · rename_i h8; exact absurd h8 (by show ¬ 8 ≤ 0; omega)
    · split
      · rename_i pat mask hp hm
        cases hp
        cases hm
        split
        · rename_i h; rw [hat] at h; cases h
        · rename_i h; rw [hat] at h; cases h
        · rename_i h
          rw [hat] at h
          cases h
          rw [if_neg (by simp)]
          simp [state, Bytes.offset]
      · rename_i h; exact absurd rfl (h Sync.ASM (List.replicate 4 0xff#8) rfl)
  unfold Sync.next
  rw [hs]
  simp only
  rw [if_neg (by show ¬ (last ≠ 0 ∧ m + 5 < last); omega)]
  have hb : Sync.block ⟨⟨⟨.data [7#8] :: List.replicate n (.data [0x1a#8, 0xcf#8, 0xfc#8, 0x1d#8, 7#8]), .eof⟩, m + 4, []⟩, 1, Sync.patterns Sync.ASM, Sync.masks Sync.ASM, 0⟩ =
      (.ok [7#8], (state n (m + 5) (m + 5)).scanner) := by
    simp [Sync.block, Bytes.fill, Reader.readExact, Reader.readExactGo, Sync.leftShift, state, reader]
  rw [hb]
  exact ⟨_, rfl⟩

theorem takes (n : Nat) : ∀ (m last : Nat), last ≤ m + 5 → ∃ items t, Takes Sync.next (state n m last) items t ∧ ((oks items).filter fun bk => decide (bk.loc.bit = BitVec.ofNat 8 0)).length = n := by
  induction n with
  | zero => intro m last _; exact ⟨[], _, .nil, rfl⟩
  | succ n ih =>
    intro m last hl
    obtain ⟨l, h1⟩ := step n m last hl
    obtain ⟨items, t, h2, h3⟩ := ih (m + 5) (m + 5) (by omega)
    refine ⟨_, t, .cons h1 h2, ?_⟩
    rw [show oks (Except.ok (ε := Error) (⟨l, ⟨m + 5, 0#8⟩, [7#8]⟩ : Block) :: items) = ⟨l, ⟨m + 5, 0#8⟩, [7#8]⟩ :: oks items from rfl, List.filter_cons]
    simp only [decide_true, if_true, List.length_cons, h3]

/-- The hypotheses of `C103_partial` hold of any number of markers up to that bound, for example of two: the stream has two blocks. -/
example : ∃ items e, Collects Sync.next (Sync.iter (reader 2) Sync.ASM 1) items (some e) ∧ items.length = 2 := by
  obtain ⟨l1, h1⟩ := step 1 0 0 (by omega)
  obtain ⟨l2, h2⟩ := step 0 5 5 (by omega)
  have h3 : Sync.next (state 0 10 10) = .ret (none, state 0 10 10) := by
    unfold Sync.next
    rw [show Sync.scan (state 0 10 10).scanner = .ret (.ok none, (state 0 10 10).scanner) from by rw [Sync.scan]; rfl]
  exact ⟨_, _, .step h1 (.step h2 (.done h3)), rfl⟩

end PatternHitsEx

/-- Two thousand million markers, and a build with overflow checks. -/
theorem C103_violated : ¬ C103_full := by
  intro h
  obtain ⟨items, t, h1, h2⟩ := PatternHitsEx.takes (2 ^ 31) 0 0 (by omega)
  obtain ⟨pre, _, _, h3⟩ := C103_panics ⟨true⟩ rfl (PatternHitsEx.reader (2 ^ 31)) Sync.ASM 1 items t h1 0 (by omega) (by rw [h2]; exact Nat.le_refl _)
  exact h _ _ _ _ _ _ h3 rfl

end Ccsds
