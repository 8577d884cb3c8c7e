import Verif.Proofs.Streaming
import Verif.Proofs.Sync
import Verif.Proofs.SyncSafe
/-! Synchronization is incremental: what comes after the bytes a block needed, data or failures, does not change the block. -/
namespace Ccsds
open Spec

/-- The reads that follow deliver data. -/
def Reader.Plain (r : Reader) : Prop := (∀ e ∈ r.script, ∃ c, c ≠ [] ∧ e = Ev.data c) ∧ r.tail = .eof

namespace Reader

theorem read_one_andThen {r r' : Reader} {b : U8} {bs : List U8} (hp : r.Plain) (h : r.read 1 = (.ok (b :: bs), r')) (more : List Ev) (t : Tail) :
    (r.andThen more t).read 1 = (.ok (b :: bs), r'.andThen more t) ∧ r'.Plain := by
  obtain ⟨es, tl⟩ := r
  obtain ⟨h1, h2⟩ := hp
  cases es with
  | nil => simp only at h2; subst h2; simp [read] at h
  | cons e es =>
    obtain ⟨c, hc, rfl⟩ := h1 _ (List.mem_cons_self ..)
    simp only [read, andThen, List.cons_append] at h ⊢
    split at h
    · rename_i hl
      simp only [Prod.mk.injEq, Except.ok.injEq] at h
      obtain ⟨rfl, rfl⟩ := h
      rw [if_pos hl]
      exact ⟨rfl, fun e he => h1 e (List.mem_cons_of_mem _ he), h2⟩
    · rename_i hl
      simp only [Prod.mk.injEq, Except.ok.injEq] at h
      obtain ⟨hx, rfl⟩ := h
      rw [if_neg hl, hx]
      refine ⟨rfl, ?_, h2⟩
      intro e he
      rcases List.mem_cons.1 he with rfl | he
      · refine ⟨_, ?_, rfl⟩
        intro h0
        have := congrArg List.length h0
        simp only [List.length_drop, List.length_nil] at this
        omega
      · exact h1 e (List.mem_cons_of_mem _ he)

theorem readExactGo_plain : ∀ (es : List Ev) (n : Nat) (acc : List U8) (k : Option IoKind) (got : List U8) (rest : List Ev),
    (∀ e ∈ es, ∃ c, c ≠ [] ∧ e = Ev.data c) → readExactGo .eof es n acc = (k, got, rest) →
    (∀ e ∈ rest, ∃ c, c ≠ [] ∧ e = Ev.data c) ∧ (k ≠ none → rest = []) := by
  intro es
  induction es with
  | nil =>
    intro n acc k got rest h1 h
    cases n with
    | zero =>
      simp only [readExactGo, Prod.mk.injEq] at h
      obtain ⟨rfl, rfl, rfl⟩ := h
      simp
    | succ n =>
      simp only [readExactGo, Prod.mk.injEq] at h
      obtain ⟨rfl, rfl, rfl⟩ := h
      simp
  | cons e es ih =>
    intro n acc k got rest h1 h
    cases n with
    | zero =>
      have : ∀ l, readExactGo .eof l 0 acc = (none, acc, l) := by intro l; cases l <;> simp [readExactGo]
      rw [this] at h
      simp only [Prod.mk.injEq] at h
      obtain ⟨rfl, rfl, rfl⟩ := h
      exact ⟨h1, by simp⟩
    | succ n =>
      obtain ⟨c, hc, rfl⟩ := h1 _ (List.mem_cons_self ..)
      have h1' : ∀ e ∈ es, ∃ c, c ≠ [] ∧ e = Ev.data c := fun e he => h1 e (List.mem_cons_of_mem _ he)
      simp only [readExactGo, if_neg hc] at h
      split at h
      · exact ih _ _ _ _ _ h1' h
      · rename_i hl
        simp only [Prod.mk.injEq] at h
        obtain ⟨rfl, rfl, rfl⟩ := h
        refine ⟨?_, by simp⟩
        intro e he
        rcases List.mem_cons.1 he with rfl | he
        · refine ⟨_, ?_, rfl⟩
          intro h0
          have := congrArg List.length h0
          simp only [List.length_drop, List.length_nil] at this
          omega
        · exact h1' e he

theorem readExact_plain {r r' : Reader} {n : Nat} {k : Option IoKind} {got : List U8} (hp : r.Plain) (h : r.readExact n = (k, got, r')) :
    r'.Plain ∧ (k ≠ none → r'.script = []) := by
  obtain ⟨es, tl⟩ := r
  obtain ⟨h1, h2⟩ := hp
  simp only at h2
  subst h2
  unfold readExact at h
  cases hg : readExactGo .eof es n [] with
  | mk e y =>
    obtain ⟨g, rest⟩ := y
    simp only [hg, Prod.mk.injEq] at h
    obtain ⟨rfl, rfl, rfl⟩ := h
    obtain ⟨a, c⟩ := readExactGo_plain es n [] _ _ _ h1 hg
    exact ⟨⟨a, rfl⟩, c⟩

end Reader

namespace Bytes

/-- The same with more to come. -/
def andThen (more : List Ev) (t : Tail) (s : Bytes) : Bytes := { s with reader := s.reader.andThen more t }

theorem next_andThen {s s' : Bytes} {b : U8} (hp : s.reader.Plain) (h : s.next = (.ok b, s')) (more : List Ev) (t : Tail) :
    (s.andThen more t).next = (.ok b, s'.andThen more t) ∧ s'.reader.Plain := by
  unfold next at h ⊢
  simp only [andThen] at h ⊢
  cases hc : s.cache.getLast? with
  | some x =>
    rw [hc] at h
    simp only [Prod.mk.injEq, Except.ok.injEq] at h
    obtain ⟨rfl, rfl⟩ := h
    exact ⟨rfl, hp⟩
  | none =>
    rw [hc] at h
    simp only at h ⊢
    cases hr : s.reader.read 1 with
    | mk o r =>
      rw [hr] at h
      match o, h with
      | .ok (x :: xs), h =>
        simp only [Prod.mk.injEq, Except.ok.injEq] at h
        obtain ⟨rfl, rfl⟩ := h
        obtain ⟨e1, e2⟩ := Reader.read_one_andThen hp hr more t
        rw [e1]
        exact ⟨rfl, e2⟩

theorem fill_andThen {s s' : Bytes} {n : Nat} {full : Bool} {buf : List U8} (hp : s.reader.Plain) (h : s.fill n = (.ok full, buf, s')) (more : List Ev) (t : Tail) :
    s'.reader.Plain ∧ (full = true → (s.andThen more t).fill n = (.ok true, buf, s'.andThen more t)) ∧
    (full = false → s'.reader.script = [] ∧ s'.cache = []) := by
  unfold fill at h ⊢
  simp only [andThen] at h ⊢
  by_cases hc : s.cache.isEmpty = true
  · simp only [hc, if_true] at h ⊢
    cases hr : s.reader.readExact n with
    | mk k y =>
      obtain ⟨got, r⟩ := y
      obtain ⟨p1, p2⟩ := Reader.readExact_plain hp hr
      rw [hr] at h
      cases k with
      | none =>
        simp only [Prod.mk.injEq, Except.ok.injEq] at h
        obtain ⟨rfl, rfl, rfl⟩ := h
        refine ⟨p1, fun _ => ?_, fun h => by cases h⟩
        rw [(Reader.readExact_andThen hp.2 hr (by simp) more t).1]
      | some k =>
        simp only at h
        split at h
        · simp only [Prod.mk.injEq, Except.ok.injEq] at h
          obtain ⟨rfl, rfl, rfl⟩ := h
          exact ⟨p1, And.intro (fun h => absurd h (by decide)) fun _ => ⟨p2 (by simp), by simpa using hc⟩⟩
        · simp at h
  · simp only [hc, Bool.false_eq_true, if_false] at h ⊢
    by_cases hl : s.cache.length < n
    · simp only [hl, if_true] at h ⊢
      cases hr : s.reader.readExact (n - s.cache.length) with
      | mk k y =>
        obtain ⟨got, r⟩ := y
        obtain ⟨p1, p2⟩ := Reader.readExact_plain hp hr
        rw [hr] at h
        cases k with
        | none =>
          simp only [Prod.mk.injEq, Except.ok.injEq] at h
          obtain ⟨rfl, rfl, rfl⟩ := h
          refine ⟨p1, fun _ => ?_, fun h => by cases h⟩
          rw [(Reader.readExact_andThen hp.2 hr (by simp) more t).1]
        | some k => simp at h
    · simp only [hl, if_false] at h ⊢
      simp only [Prod.mk.injEq, Except.ok.injEq] at h
      obtain ⟨rfl, rfl, rfl⟩ := h
      exact ⟨hp, fun _ => rfl, fun h => by cases h⟩

end Bytes

namespace Sync

/-- The attempt, with more to come. -/
def Attempt.andThen (more : List Ev) (t : Tail) : Attempt → Attempt
  | .io k b => .io k (b.andThen more t)
  | .mismatch w b => .mismatch w (b.andThen more t)
  | .found w b => .found w (b.andThen more t)

/-- The bytes left behind. -/
def Attempt.bytes : Attempt → Bytes
  | .io _ b => b
  | .mismatch _ b => b
  | .found _ b => b

theorem attempt_andThen (more : List Ev) (t : Tail) (pm : List (U8 × U8)) : ∀ (w : List U8) (s : Bytes), s.reader.Plain →
    (∀ k b, attempt pm w s ≠ .io k b) → attempt pm w (s.andThen more t) = (attempt pm w s).andThen more t ∧ (attempt pm w s).bytes.reader.Plain := by
  induction pm with
  | nil => intro w s hp _; exact ⟨rfl, hp⟩
  | cons e pm ih =>
    obtain ⟨p, m⟩ := e
    intro w s hp hio
    rw [attempt] at hio
    cases hn : s.next with
    | mk r s1 =>
      cases r with
      | error k => rw [hn] at hio; exact absurd rfl (hio k s1)
      | ok b =>
        obtain ⟨e1, e2⟩ := Bytes.next_andThen hp hn more t
        rw [hn] at hio
        have hx : attempt ((p, m) :: pm) w (s.andThen more t) =
            if b &&& m ≠ p then .mismatch (w ++ [b]) (s1.andThen more t) else attempt pm (w ++ [b]) (s1.andThen more t) := by
          rw [attempt, e1]
        have hy : attempt ((p, m) :: pm) w s = if b &&& m ≠ p then .mismatch (w ++ [b]) s1 else attempt pm (w ++ [b]) s1 := by
          rw [attempt, hn]
        rw [hx, hy]
        simp only at hio
        by_cases hb : b &&& m ≠ p
        · simp only [if_pos hb]; exact ⟨rfl, e2⟩
        · simp only [if_neg hb] at hio ⊢
          exact ih _ _ e2 hio

/-- The same with more to come. -/
def State.andThen (more : List Ev) (t : Tail) (s : State) : State := { s with bytes := s.bytes.andThen more t }

theorem scan_andThen (more : List Ev) (t : Tail) (s : State) : ∀ (loc : Loc) (s' : State), s.bytes.reader.Plain →
    scan s = .ret (.ok (some loc), s') → scan (s.andThen more t) = .ret (.ok (some loc), s'.andThen more t) ∧ s'.bytes.reader.Plain := by
  fun_induction scan s with
  | case1 => intro loc s' _ h; simp at h
  | case2 => intro loc s' _ h; simp at h
  | case3 => intro loc s' _ h; simp at h
  | case4 s h8 pat mask e1 e2 w b hat h7 ih =>
    intro loc s' hp h
    obtain ⟨a1, a2⟩ := attempt_andThen more t (pat.zip mask) [] s.bytes hp (by rw [hat]; simp)
    rw [hat] at a1 a2
    obtain ⟨i1, i2⟩ := ih loc s' a2 h
    refine ⟨?_, i2⟩
    rw [← i1, scan]
    have e1' : (s.andThen more t).masks[(s.andThen more t).patternIdx]? = some mask := e1
    have e2' : (s.andThen more t).patterns[(s.andThen more t).patternIdx]? = some pat := e2
    have h8' : ¬ 8 ≤ (s.andThen more t).patternIdx := h8
    have a1' : attempt (pat.zip mask) [] (s.andThen more t).bytes = .mismatch w (b.andThen more t) := a1
    simp only [h8', dite_false, e1', e2']
    split <;> rename_i hx <;> rw [a1'] at hx <;> simp only [Attempt.mismatch.injEq, reduceCtorEq] at hx
    obtain ⟨rfl, rfl⟩ := hx
    have h7' : (s.andThen more t).patternIdx + 1 = 8 := h7
    rw [dif_pos h7']
    rfl
  | case5 s h8 pat mask e1 e2 w b hat h7 ih =>
    intro loc s' hp h
    obtain ⟨a1, a2⟩ := attempt_andThen more t (pat.zip mask) [] s.bytes hp (by rw [hat]; simp)
    rw [hat] at a1 a2
    obtain ⟨i1, i2⟩ := ih loc s' a2 h
    refine ⟨?_, i2⟩
    rw [← i1, scan]
    have e1' : (s.andThen more t).masks[(s.andThen more t).patternIdx]? = some mask := e1
    have e2' : (s.andThen more t).patterns[(s.andThen more t).patternIdx]? = some pat := e2
    have h8' : ¬ 8 ≤ (s.andThen more t).patternIdx := h8
    have a1' : attempt (pat.zip mask) [] (s.andThen more t).bytes = .mismatch w (b.andThen more t) := a1
    simp only [h8', dite_false, e1', e2']
    split <;> rename_i hx <;> rw [a1'] at hx <;> simp only [Attempt.mismatch.injEq, reduceCtorEq] at hx
    obtain ⟨rfl, rfl⟩ := hx
    have h7' : ¬ (s.andThen more t).patternIdx + 1 = 8 := h7
    rw [dif_neg h7']
    rfl
  | case6 => intro loc s' _ h; simp at h
  | case7 s h8 pat mask e1 e2 w b hat hlt bit offset bb b' =>
    intro loc s' hp h
    obtain ⟨a1, a2⟩ := attempt_andThen more t (pat.zip mask) [] s.bytes hp (by rw [hat]; simp)
    rw [hat] at a1 a2
    simp only [Outcome.ret.injEq, Prod.mk.injEq, Except.ok.injEq, Option.some.injEq] at h
    obtain ⟨rfl, rfl⟩ := h
    constructor
    · rw [scan]
      have e1' : (s.andThen more t).masks[(s.andThen more t).patternIdx]? = some mask := e1
      have e2' : (s.andThen more t).patterns[(s.andThen more t).patternIdx]? = some pat := e2
      have h8' : ¬ 8 ≤ (s.andThen more t).patternIdx := h8
      have a1' : attempt (pat.zip mask) [] (s.andThen more t).bytes = .found w (b.andThen more t) := a1
      simp only [h8', dite_false, e1', e2']
      split <;> rename_i hx <;> rw [a1'] at hx <;> simp only [Attempt.found.injEq, reduceCtorEq] at hx
      obtain ⟨rfl, rfl⟩ := hx
      have hlt' : ¬ (b.andThen more t).numRead < (b.andThen more t).cache.length := hlt
      rw [if_neg hlt']
      by_cases h0 : s.patternIdx > 0
      · simp only [State.andThen, b', bit, offset, bb, h0, if_true]; rfl
      · simp only [State.andThen, b', bit, offset, bb, h0, if_false]; rfl
    · simp only [b']
      split <;> exact a2
  | case8 => intro loc s' _ h; simp at h

theorem block_andThen {s s' : State} {d : List U8} (hp : s.bytes.reader.Plain) (hc : s.patternIdx ≠ 0 → s.bytes.cache ≠ []) (h : block s = (.ok d, s'))
    (more : List Ev) (t : Tail) :
    s'.bytes.reader.Plain ∧ (block (s.andThen more t) = (.ok d, s'.andThen more t) ∨ (s'.bytes.reader.script = [] ∧ s'.bytes.cache = [])) := by
  unfold block at h ⊢
  simp only [State.andThen] at h ⊢
  cases hf : s.bytes.fill (if s.patternIdx ≠ 0 then s.blockSize + 1 else s.blockSize) with
  | mk o y =>
    obtain ⟨buf, b⟩ := y
    rw [hf] at h
    cases o with
    | error k => simp at h
    | ok full =>
      simp only [Prod.mk.injEq, Except.ok.injEq] at h
      obtain ⟨rfl, rfl⟩ := h
      obtain ⟨f1, f2, f3⟩ := Bytes.fill_andThen hp hf more t
      refine ⟨by split <;> exact f1, ?_⟩
      cases full with
      | true =>
        left
        have f2 := f2 rfl
        by_cases h0 : s.patternIdx = 0
        · simp only [h0, ne_eq, not_true_eq_false, if_false] at f2 ⊢
          rw [f2]
        · simp only [h0, ne_eq, not_false_eq_true, if_true] at f2 ⊢
          rw [f2]
          rfl
      | false =>
        right
        obtain ⟨g1, g2⟩ := f3 rfl
        by_cases h0 : s.patternIdx = 0
        · simp [h0, g1, g2]
        · exfalso
          have hc' := hc h0
          have : s.bytes.cache.isEmpty = false := by simpa using hc'
          unfold Bytes.fill at hf
          simp only [this, Bool.false_eq_true, if_false, ne_eq, h0, not_false_eq_true, if_true] at hf
          split at hf
          · split at hf <;> simp only [Prod.mk.injEq, reduceCtorEq, Except.ok.injEq, Bool.true_eq_false, false_and] at hf
          · simp only [Prod.mk.injEq, Except.ok.injEq, Bool.true_eq_false, false_and] at hf

/-- Nothing left: the iteration ends. -/
theorem next_exhausted {asm : List U8} (hasm : asm ≠ []) {s : Iter} (hf : For asm s.scanner) (hp : s.scanner.bytes.reader.Plain)
    (h1 : s.scanner.bytes.reader.script = []) (h2 : s.scanner.bytes.cache = []) : ∃ s', next s = .ret (none, s') := by
  obtain ⟨b', hn⟩ : ∃ b', s.scanner.bytes.next = (.error .unexpectedEof, b') := by
    unfold Bytes.next
    rw [h2]
    unfold Reader.read
    rw [h1, hp.2]
    exact ⟨_, rfl⟩
  have hs : ∃ sc, scan s.scanner = .ret (.ok none, sc) := by
    rw [scan, dif_neg (by have := hf.2.2; omega)]
    have e1 := patterns_get asm _ hf.2.2
    have e2 := masks_get asm _ hf.2.2
    rw [← hf.1] at e1
    rw [← hf.2.1] at e2
    simp only [e1, e2]
    have hl := pmOf_length asm s.scanner.patternIdx
    split
    · rename_i k b hat
      rw [zip_get] at hat
      cases hpm : pmOf asm s.scanner.patternIdx with
      | nil =>
        rw [hpm] at hl
        have := List.length_pos_iff.2 hasm
        simp only [List.length_nil] at hl; omega
      | cons x xs =>
        rw [hpm, attempt, hn] at hat
        simp only [Attempt.io.injEq] at hat
        obtain ⟨rfl, rfl⟩ := hat
        exact ⟨_, rfl⟩
    all_goals
      rename_i hat
      rw [zip_get] at hat
      cases hpm : pmOf asm s.scanner.patternIdx with
      | nil =>
        rw [hpm] at hl
        have := List.length_pos_iff.2 hasm
        simp only [List.length_nil] at hl; omega
      | cons x xs =>
        rw [hpm, attempt, hn] at hat
        simp at hat
  obtain ⟨sc, hs⟩ := hs
  exact ⟨_, by unfold next; rw [hs]⟩

/-- The same with more to come. -/
def Iter.andThen (more : List Ev) (t : Tail) (s : Iter) : Iter := { s with scanner := s.scanner.andThen more t }

/-- A block after which the iteration does not end is the same whatever comes later. -/
theorem next_andThen {asm : List U8} (hasm : asm ≠ []) {s s' : Iter} {d : Block} (hf : Safe asm s) (hp : s.scanner.bytes.reader.Plain)
    (h : next s = .ret (some (.ok d), s')) (more : List Ev) (t : Tail) :
    Safe asm s' ∧ s'.scanner.bytes.reader.Plain ∧ (next (s.andThen more t) = .ret (some (.ok d), s'.andThen more t) ∨ ∃ s'', next s' = .ret (none, s'')) := by
  have hsafe : Safe asm s' := by
    obtain ⟨res, s1, e1, e2⟩ := next_safe asm s hf
    rw [h] at e1
    cases e1
    exact e2
  unfold next at h
  cases hs : scan s.scanner with
  | panic => rw [hs] at h; cases h
  | ret y =>
    obtain ⟨o, sc⟩ := y
    rw [hs] at h
    match o, h with
    | .ok none, h => simp at h
    | .error e, h => simp at h
    | .ok (some loc), h =>
      obtain ⟨a1, a2⟩ := scan_andThen more t s.scanner loc sc hp hs
      have hcache := scan_cache _ _ _ hs
      simp only at h
      split at h
      · cases h
      · rename_i hl
        cases hb : block sc with
        | mk r sc' =>
          rw [hb] at h
          cases r with
          | error e => simp at h
          | ok data =>
            simp only [Outcome.ret.injEq, Prod.mk.injEq, Option.some.injEq, Except.ok.injEq] at h
            obtain ⟨rfl, rfl⟩ := h
            obtain ⟨b1, b2⟩ := block_andThen a2 hcache hb more t
            refine ⟨hsafe, b1, ?_⟩
            rcases b2 with b2 | ⟨b2, b3⟩
            · left
              unfold next
              have a1' : scan (s.andThen more t).scanner = _ := a1
              have hl' : ¬ ((s.andThen more t).last ≠ 0 ∧ loc.offset < (s.andThen more t).last) := hl
              rw [a1']
              simp only
              rw [if_neg hl', b2]
              rfl
            · right
              exact next_exhausted hasm hsafe.1 b1 b2 b3

end Sync
end Ccsds
