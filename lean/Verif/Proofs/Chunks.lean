import Verif.Spec.Chunks
import Verif.Proofs.SyncStreaming
import Verif.Proofs.SyncErrors
import Verif.Proofs.Reader
import Verif.Model.Pipeline
/-! What the library makes of a reader depends on its bytes and failures only, not on how the bytes are cut into reads: every stage commutes with cutting
the reads into single bytes. -/
namespace Ccsds
open Spec

/-- Apply `f` to the state in an outcome of `next`. -/
def Outcome.mapState {α S : Type} (f : S → S) : Outcome (α × S) → Outcome (α × S)
  | .ret (a, s) => .ret (a, f s)
  | .panic => .panic

theorem Collects.mapState {S α : Type} {next : S → Outcome (Option α × S)} {f : S → S} (hf : ∀ s, next (f s) = (next s).mapState f) {s : S} {items : List α}
    {e : Option S} (h : Collects next s items e) : Collects next (f s) items (e.map f) := by
  induction h with
  | done h => exact .done (by rw [hf, h]; rfl)
  | panicked h => exact .panicked (by rw [hf, h]; rfl)
  | step h _ ih => exact .step (by rw [hf, h]; rfl) ih

theorem Collects.ofMapState {S α : Type} {next : S → Outcome (Option α × S)} {f : S → S} (hf : ∀ s, next (f s) = (next s).mapState f) {s : S} {items : List α}
    {e : Option S} (h : Collects next (f s) items e) : ∃ e', Collects next s items e' ∧ e'.isSome = e.isSome := by
  generalize hs : f s = s0 at h
  induction h generalizing s with
  | done h =>
    subst hs
    rw [hf] at h
    cases hn : next s with
    | panic => rw [hn] at h; cases h
    | ret y =>
      obtain ⟨o, s1⟩ := y
      rw [hn] at h
      simp only [Outcome.mapState, Outcome.ret.injEq, Prod.mk.injEq] at h
      obtain ⟨rfl, rfl⟩ := h
      exact ⟨_, .done hn, rfl⟩
  | panicked h =>
    subst hs
    rw [hf] at h
    cases hn : next s with
    | panic => exact ⟨_, .panicked hn, rfl⟩
    | ret y => rw [hn] at h; cases h
  | step h _ ih =>
    subst hs
    rw [hf] at h
    cases hn : next s with
    | panic => rw [hn] at h; cases h
    | ret y =>
      obtain ⟨o, s1⟩ := y
      rw [hn] at h
      simp only [Outcome.mapState, Outcome.ret.injEq, Prod.mk.injEq] at h
      obtain ⟨rfl, rfl⟩ := h
      obtain ⟨e', h1, h2⟩ := ih rfl
      exact ⟨e', .step hn h1, h2⟩

namespace Reader

/-- The reads cut into single bytes. -/
def flat (r : Reader) : Reader := ⟨r.script.flatMap single, r.tail⟩

theorem flat_eq {r r' : Reader} (h : SameStream r r') : r.flat = r'.flat := by
  unfold flat
  rw [h.1, h.2]

theorem single_ne {c : List U8} (h : c ≠ []) : single (.data c) = c.map fun y => .data [y] := by
  cases c with
  | nil => exact absurd rfl h
  | cons x c => rfl

theorem readExactGo_singles (t : Tail) (es : List Ev) : ∀ (c : List U8) (n : Nat) (acc : List U8),
    readExactGo t (c.map (fun y => .data [y]) ++ es) n acc =
      if c.length ≤ n then readExactGo t es (n - c.length) (acc ++ c) else (none, acc ++ c.take n, (c.drop n).map (fun y => .data [y]) ++ es) := by
  intro c
  induction c with
  | nil => intro n acc; simp
  | cons x c ih =>
    intro n acc
    cases n with
    | zero => rw [readExactGo_zero]; simp
    | succ n =>
      simp only [List.map_cons, List.cons_append, readExactGo]
      rw [if_neg (by simp), if_pos (by simp), show n + 1 - [x].length = n from rfl, ih]
      by_cases hc : c.length ≤ n
      · rw [if_pos hc, if_pos (by simp; omega)]
        simp
      · rw [if_neg hc, if_neg (by simp; omega)]
        simp

theorem readExactGo_flat (t : Tail) : ∀ (es : List Ev) (n : Nat) (acc : List U8), readExactGo t (es.flatMap single) n acc =
    ((readExactGo t es n acc).1, (readExactGo t es n acc).2.1, (readExactGo t es n acc).2.2.flatMap single) := by
  intro es
  induction es with
  | nil =>
    intro n acc
    cases n with
    | zero => simp [readExactGo_zero]
    | succ n => cases t <;> simp [readExactGo]
  | cons e es ih =>
    intro n acc
    cases n with
    | zero => simp [readExactGo_zero]
    | succ n =>
      cases e with
      | err k =>
        simp only [List.flatMap_cons, single, List.cons_append, List.nil_append, readExactGo]
        split
        · exact ih _ _
        · rfl
      | data c =>
        by_cases hc : c = []
        · subst hc
          simp [single, readExactGo]
        · rw [List.flatMap_cons, single_ne hc, readExactGo_singles]
          simp only [readExactGo, if_neg hc]
          by_cases hl : c.length ≤ n + 1
          · rw [if_pos hl, if_pos hl]; exact ih _ _
          · rw [if_neg hl, if_neg hl]
            have : c.drop (n + 1) ≠ [] := by
              intro h0
              have := congrArg List.length h0
              simp only [List.length_drop, List.length_nil] at this
              omega
            rw [List.flatMap_cons, single_ne this]

theorem readExact_flat (r : Reader) (n : Nat) : r.flat.readExact n = ((r.readExact n).1, (r.readExact n).2.1, (r.readExact n).2.2.flat) := by
  unfold readExact flat
  simp only [readExactGo_flat]

theorem read_one_flat (r : Reader) : r.flat.read 1 = ((r.read 1).1, (r.read 1).2.flat) := by
  obtain ⟨es, t⟩ := r
  unfold read flat
  cases es with
  | nil => cases t <;> simp
  | cons e es =>
    cases e with
    | err k => simp [single]
    | data c =>
      match c with
      | [] => simp [single]
      | [x] => simp [single]
      | x :: y :: c => simp [single]

end Reader

/-! ### Packets -/

theorem Packet.read_flat (r : Reader) : Packet.read r.flat = (Packet.read r).mapState Reader.flat := by
  unfold Packet.read
  rw [Reader.readExact_flat]
  cases h1 : r.readExact PrimaryHeader.LEN with
  | mk k y =>
    obtain ⟨hdr, r1⟩ := y
    cases k with
    | some k => rfl
    | none =>
      simp only
      cases PrimaryHeader.decode hdr with
      | error e => rfl
      | ok ph =>
        simp only
        split
        · rw [Reader.readExact_flat]
          cases r1.readExact (PrimaryHeader.LEN + (ph.lenMinus1.toNat + 1) - PrimaryHeader.LEN) with
          | mk k y =>
            obtain ⟨body, r2⟩ := y
            cases k <;> rfl
        · rfl

/-- The same decoder on the reads cut into single bytes. -/
def PacketDecoder.flat (s : PacketDecoder) : PacketDecoder := ⟨s.reader.flat, s.offset⟩

theorem PacketDecoder.next_flat (s : PacketDecoder) : s.flat.next = s.next.mapState PacketDecoder.flat := by
  unfold PacketDecoder.next
  have h : Packet.read s.flat.reader = _ := Packet.read_flat s.reader
  rw [h]
  cases Packet.read s.reader with
  | panic => rfl
  | ret y =>
    obtain ⟨o, r⟩ := y
    cases o with
    | ok p => rfl
    | error e =>
      simp only [Outcome.mapState]
      split <;> rfl

/-! ### Blocks -/

/-- The same on the reads cut into single bytes. -/
def Bytes.flat (s : Bytes) : Bytes := { s with reader := s.reader.flat }

theorem Bytes.next_flat (s : Bytes) : s.flat.next = (s.next.1, s.next.2.flat) := by
  unfold Bytes.next
  simp only [Bytes.flat]
  cases s.cache.getLast? with
  | some x => rfl
  | none =>
    simp only
    rw [Reader.read_one_flat]
    cases s.reader.read 1 with
    | mk o r =>
      match o with
      | .error k => rfl
      | .ok [] => rfl
      | .ok (b :: _) => rfl

theorem Bytes.fill_flat (s : Bytes) (n : Nat) : s.flat.fill n = ((s.fill n).1, (s.fill n).2.1, (s.fill n).2.2.flat) := by
  unfold Bytes.fill
  simp only [Bytes.flat]
  by_cases hc : s.cache.isEmpty = true
  · simp only [hc, if_true]
    rw [Reader.readExact_flat]
    cases s.reader.readExact n with
    | mk k y =>
      obtain ⟨got, r⟩ := y
      cases k with
      | none => rfl
      | some k =>
        by_cases hk : k = .unexpectedEof
        · simp only [hk, if_true]
        · simp only [hk, if_false]
  · simp only [hc, Bool.false_eq_true, if_false]
    by_cases hl : s.cache.length < n
    · simp only [hl, if_true]
      rw [Reader.readExact_flat]
      cases s.reader.readExact (n - s.cache.length) with
      | mk k y =>
        obtain ⟨got, r⟩ := y
        cases k <;> rfl
    · simp only [hl, if_false]

namespace Sync

/-- The same on the reads cut into single bytes. -/
def Attempt.flat : Attempt → Attempt
  | .io k b => .io k b.flat
  | .mismatch w b => .mismatch w b.flat
  | .found w b => .found w b.flat

theorem attempt_flat (pm : List (U8 × U8)) : ∀ (w : List U8) (s : Bytes), attempt pm w s.flat = (attempt pm w s).flat := by
  induction pm with
  | nil => intro w s; rfl
  | cons e pm ih =>
    obtain ⟨p, m⟩ := e
    intro w s
    rw [attempt, attempt, Bytes.next_flat]
    cases s.next with
    | mk o s1 =>
      cases o with
      | error k => rfl
      | ok b =>
        simp only
        split
        · rfl
        · exact ih _ _

/-- The same on the reads cut into single bytes. -/
def State.flat (s : State) : State := { s with bytes := s.bytes.flat }

theorem scan_flat (s : State) : scan s.flat = (scan s).mapState State.flat := by
  fun_induction scan s with
  | case1 s h8 =>
    have h8' : 8 ≤ s.flat.patternIdx := h8
    rw [scan, dif_pos h8']; rfl
  | case2 s h8 pat mask e1 e2 b hat =>
    have a := attempt_flat (pat.zip mask) [] s.bytes
    rw [hat] at a
    have e1' : s.flat.masks[s.flat.patternIdx]? = some mask := e1
    have e2' : s.flat.patterns[s.flat.patternIdx]? = some pat := e2
    have h8' : ¬ 8 ≤ s.flat.patternIdx := h8
    have a' : attempt (pat.zip mask) [] s.flat.bytes = .io .unexpectedEof b.flat := a
    rw [scan]
    simp only [h8', dite_false, e1', e2']
    split <;> rename_i hx <;> rw [a'] at hx <;> simp only [Attempt.io.injEq, reduceCtorEq] at hx
    obtain ⟨rfl, rfl⟩ := hx
    rfl
  | case3 s h8 pat mask e1 e2 kk b hat hk =>
    have a := attempt_flat (pat.zip mask) [] s.bytes
    rw [hat] at a
    have e1' : s.flat.masks[s.flat.patternIdx]? = some mask := e1
    have e2' : s.flat.patterns[s.flat.patternIdx]? = some pat := e2
    have h8' : ¬ 8 ≤ s.flat.patternIdx := h8
    have a' : attempt (pat.zip mask) [] s.flat.bytes = .io kk b.flat := a
    rw [scan]
    simp only [h8', dite_false, e1', e2']
    split <;> rename_i hx <;> rw [a'] at hx <;> simp only [Attempt.io.injEq, reduceCtorEq] at hx
    obtain ⟨rfl, rfl⟩ := hx
    rw [if_neg hk]
    rfl
  | case4 s h8 pat mask e1 e2 w b hat h7 ih =>
    have a := attempt_flat (pat.zip mask) [] s.bytes
    rw [hat] at a
    have e1' : s.flat.masks[s.flat.patternIdx]? = some mask := e1
    have e2' : s.flat.patterns[s.flat.patternIdx]? = some pat := e2
    have h8' : ¬ 8 ≤ s.flat.patternIdx := h8
    have a' : attempt (pat.zip mask) [] s.flat.bytes = .mismatch w b.flat := a
    rw [← ih, scan]
    simp only [h8', dite_false, e1', e2']
    split <;> rename_i hx <;> rw [a'] at hx <;> simp only [Attempt.mismatch.injEq, reduceCtorEq] at hx
    obtain ⟨rfl, rfl⟩ := hx
    have h7' : s.flat.patternIdx + 1 = 8 := h7
    rw [dif_pos h7']
    rfl
  | case5 s h8 pat mask e1 e2 w b hat h7 ih =>
    have a := attempt_flat (pat.zip mask) [] s.bytes
    rw [hat] at a
    have e1' : s.flat.masks[s.flat.patternIdx]? = some mask := e1
    have e2' : s.flat.patterns[s.flat.patternIdx]? = some pat := e2
    have h8' : ¬ 8 ≤ s.flat.patternIdx := h8
    have a' : attempt (pat.zip mask) [] s.flat.bytes = .mismatch w b.flat := a
    rw [← ih, scan]
    simp only [h8', dite_false, e1', e2']
    split <;> rename_i hx <;> rw [a'] at hx <;> simp only [Attempt.mismatch.injEq, reduceCtorEq] at hx
    obtain ⟨rfl, rfl⟩ := hx
    have h7' : ¬ s.flat.patternIdx + 1 = 8 := h7
    rw [dif_neg h7']
    rfl
  | case6 s h8 pat mask e1 e2 w b hat hlt =>
    have a := attempt_flat (pat.zip mask) [] s.bytes
    rw [hat] at a
    have e1' : s.flat.masks[s.flat.patternIdx]? = some mask := e1
    have e2' : s.flat.patterns[s.flat.patternIdx]? = some pat := e2
    have h8' : ¬ 8 ≤ s.flat.patternIdx := h8
    have a' : attempt (pat.zip mask) [] s.flat.bytes = .found w b.flat := a
    rw [scan]
    simp only [h8', dite_false, e1', e2']
    split <;> rename_i hx <;> rw [a'] at hx <;> simp only [Attempt.found.injEq, reduceCtorEq] at hx
    obtain ⟨rfl, rfl⟩ := hx
    have hlt' : b.flat.numRead < b.flat.cache.length := hlt
    rw [if_pos hlt']
    rfl
  | case7 s h8 pat mask e1 e2 w b hat hlt bit offset bb b' =>
    have a := attempt_flat (pat.zip mask) [] s.bytes
    rw [hat] at a
    have e1' : s.flat.masks[s.flat.patternIdx]? = some mask := e1
    have e2' : s.flat.patterns[s.flat.patternIdx]? = some pat := e2
    have h8' : ¬ 8 ≤ s.flat.patternIdx := h8
    have a' : attempt (pat.zip mask) [] s.flat.bytes = .found w b.flat := a
    rw [scan]
    simp only [h8', dite_false, e1', e2']
    split <;> rename_i hx <;> rw [a'] at hx <;> simp only [Attempt.found.injEq, reduceCtorEq] at hx
    obtain ⟨rfl, rfl⟩ := hx
    have hlt' : ¬ b.flat.numRead < b.flat.cache.length := hlt
    rw [if_neg hlt']
    by_cases h0 : s.patternIdx > 0
    · simp only [State.flat, b', bit, offset, bb, h0, if_true, Outcome.mapState]; rfl
    · simp only [State.flat, b', bit, offset, bb, h0, if_false, Outcome.mapState]; rfl
  | case8 s h8 hno =>
    have h8' : ¬ 8 ≤ s.flat.patternIdx := h8
    rw [scan, dif_neg h8']
    split
    · rename_i pat mask e2 e1
      exact absurd e1 (hno pat mask e2)
    · rfl

theorem block_flat (s : State) : block s.flat = ((block s).1, (block s).2.flat) := by
  unfold block
  simp only [State.flat]
  by_cases h0 : s.patternIdx = 0
  · simp only [h0, ne_eq, not_true_eq_false, if_false, Bytes.fill_flat]
    cases s.bytes.fill s.blockSize with
    | mk o y =>
      obtain ⟨buf, b⟩ := y
      cases o <;> rfl
  · simp only [h0, ne_eq, not_false_eq_true, if_true, Bytes.fill_flat]
    cases s.bytes.fill (s.blockSize + 1) with
    | mk o y =>
      obtain ⟨buf, b⟩ := y
      cases o <;> rfl

/-- The same on the reads cut into single bytes. -/
def Iter.flat (s : Iter) : Iter := { s with scanner := s.scanner.flat }

theorem next_flat (s : Iter) : next s.flat = (next s).mapState Iter.flat := by
  unfold next
  have h : scan s.flat.scanner = _ := scan_flat s.scanner
  rw [h]
  cases scan s.scanner with
  | panic => rfl
  | ret y =>
    obtain ⟨o, sc⟩ := y
    match o with
    | .ok none => rfl
    | .error e => rfl
    | .ok (some loc) =>
      simp only [Outcome.mapState]
      have hl : s.flat.last = s.last := rfl
      rw [hl]
      split
      · rfl
      · rw [block_flat]
        cases block sc with
        | mk r sc' => cases r <;> rfl

end Sync
end Ccsds
