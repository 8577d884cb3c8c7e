import Verif.Props.PacketDecoder
import Verif.Proofs.SyncSafe
/-!
# Termination on every input that ends, whatever errors occur before
-/
namespace Ccsds

/-- A measure of what is still to come: bytes and results. -/
def weight (es : List Ev) : Nat := (es.map fun e => e.bytes.length + 1).sum

theorem weight_cons (e : Ev) (es : List Ev) : weight (e :: es) = e.bytes.length + 1 + weight es := by simp [weight]

theorem readExactGo_weight (t : Tail) (es : List Ev) : ∀ (n : Nat) (acc : List U8),
    weight (Reader.readExactGo t es n acc).2.2 ≤ weight es ∧
    (0 < n → t = .eof → weight (Reader.readExactGo t es n acc).2.2 < weight es ∨ (Reader.readExactGo t es n acc).1 = some .unexpectedEof) := by
  induction es with
  | nil =>
    intro n acc
    cases n with
    | zero => simp [Reader.readExactGo]
    | succ n => cases t <;> simp [Reader.readExactGo]
  | cons e es ih =>
    intro n acc
    cases n with
    | zero => simp [Reader.readExactGo]
    | succ n =>
      rw [weight_cons]
      cases e with
      | err k =>
        simp only [Reader.readExactGo]
        split
        · obtain ⟨h1, h2⟩ := ih (n + 1) acc
          exact ⟨by omega, fun _ _ => .inl (by omega)⟩
        · exact ⟨by dsimp only; omega, fun _ _ => .inl (by dsimp only; omega)⟩
      | data c =>
        simp only [Reader.readExactGo]
        split
        · exact ⟨by dsimp only; omega, fun _ _ => .inr rfl⟩
        · split
          · obtain ⟨h1, h2⟩ := ih (n + 1 - c.length) (acc ++ c)
            exact ⟨by omega, fun _ _ => .inl (by omega)⟩
          · simp only [weight_cons, Ev.bytes, List.length_drop]
            exact ⟨by omega, fun _ _ => .inl (by omega)⟩

theorem readExact_weight (r : Reader) (n : Nat) :
    weight (r.readExact n).2.2.script ≤ weight r.script ∧ (r.readExact n).2.2.tail = r.tail ∧
    (0 < n → r.tail = .eof → weight (r.readExact n).2.2.script < weight r.script ∨ (r.readExact n).1 = some .unexpectedEof) := by
  have := readExactGo_weight r.tail r.script n []
  exact ⟨this.1, rfl, this.2⟩

theorem read_weight (r : Reader) (ht : r.tail = .eof) (res : Except Error Packet) (r' : Reader) (h : Packet.read r = .ret (res, r')) :
    r'.tail = .eof ∧ (weight r'.script < weight r.script ∨ res = .error (.io .unexpectedEof)) := by
  unfold Packet.read at h
  obtain ⟨a1, a2, a3⟩ := readExact_weight r PrimaryHeader.LEN
  have a3 := a3 (by decide) ht
  generalize r.readExact PrimaryHeader.LEN = x at h a1 a2 a3
  obtain ⟨e1, hdr, r1⟩ := x
  simp only at a1 a2 a3
  cases e1 with
  | some k =>
    simp only [Outcome.ret.injEq, Prod.mk.injEq] at h
    obtain ⟨rfl, rfl⟩ := h
    refine ⟨by rw [a2, ht], a3.imp id fun h => by cases h; rfl⟩
  | none =>
    have a3 : weight r1.script < weight r.script := a3.elim id fun h => by cases h
    simp only at h
    split at h
    · simp only [Outcome.ret.injEq, Prod.mk.injEq] at h
      obtain ⟨rfl, rfl⟩ := h
      exact ⟨by rw [a2, ht], .inl a3⟩
    · rename_i ph _
      split at h
      · obtain ⟨b1, b2, _⟩ := readExact_weight r1 (PrimaryHeader.LEN + (ph.lenMinus1.toNat + 1) - PrimaryHeader.LEN)
        generalize r1.readExact (PrimaryHeader.LEN + (ph.lenMinus1.toNat + 1) - PrimaryHeader.LEN) = y at h b1 b2
        obtain ⟨e2, body, r2⟩ := y
        simp only at b1 b2
        cases e2 <;>
        · simp only [Outcome.ret.injEq, Prod.mk.injEq] at h
          obtain ⟨rfl, rfl⟩ := h
          exact ⟨by rw [b2, a2, ht], .inl (by omega)⟩
      · cases h

/-- `decode_packets` ends, or panics, on every reader that ends. -/
theorem packets_end (r : Reader) (ht : r.tail = .eof) (o : Nat) : ∃ items e, Collects PacketDecoder.next ⟨r, o⟩ items e := by
  generalize hn : weight r.script = n
  induction n using Nat.strongRecOn generalizing r o with
  | ind n ih =>
    cases hr : Packet.read r with
    | panic => exact ⟨[], none, .panicked (by simp [PacketDecoder.next, hr])⟩
    | ret x =>
      obtain ⟨res, r'⟩ := x
      obtain ⟨ht', hw⟩ := read_weight r ht res r' hr
      cases res with
      | ok p =>
        have hw : weight r'.script < weight r.script := hw.elim id fun h => by cases h
        obtain ⟨items, e, hc⟩ := ih _ (by omega) r' ht' (o + (PrimaryHeader.LEN + (p.header.lenMinus1.toNat + 1))) rfl
        exact ⟨_, e, .step (by simp only [PacketDecoder.next, hr]; rfl) hc⟩
      | error k =>
        by_cases hk : k = .io .unexpectedEof
        · exact ⟨[], some ⟨r', o⟩, .done (by simp [PacketDecoder.next, hr, hk])⟩
        · have hw : weight r'.script < weight r.script := hw.elim id fun h => absurd (by injection h) hk
          obtain ⟨items, e, hc⟩ := ih _ (by omega) r' ht' o rfl
          exact ⟨_, e, .step (by simp only [PacketDecoder.next, hr, hk, if_false]; rfl) hc⟩

namespace Sync

/-- What `Bytes` can still deliver. -/
def left (b : Bytes) : Nat := b.cache.length + weight b.reader.script

theorem read1_left (r : Reader) (ht : r.tail = .eof) : (r.read 1).2.tail = .eof ∧
    match (r.read 1).1 with
    | .ok [] => weight (r.read 1).2.script ≤ weight r.script
    | .ok (_ :: _) => weight (r.read 1).2.script < weight r.script
    | .error _ => weight (r.read 1).2.script < weight r.script := by
  obtain ⟨script, tail⟩ := r
  simp only at ht
  subst ht
  cases script with
  | nil => simp [Reader.read]
  | cons e es =>
    cases e with
    | err k => simp [Reader.read, weight_cons, Ev.bytes]
    | data c =>
      simp only [Reader.read]
      split
      · match c with
        | [] => simp [weight_cons]
        | x :: y => simp [weight_cons, Ev.bytes]
      · match c with
        | [] => simp_all
        | x :: y => simp [weight_cons, Ev.bytes]

/-- Each byte taken, and each failed read other than the end, uses something up. -/
theorem next_left (b : Bytes) (ht : b.reader.tail = .eof) : b.next.2.reader.tail = .eof ∧
    match b.next.1 with
    | .ok _ => left b.next.2 < left b
    | .error k => left b.next.2 ≤ left b ∧ (k ≠ .unexpectedEof → left b.next.2 < left b) := by
  unfold Bytes.next
  cases hc : b.cache.getLast? with
  | some x =>
    have : b.cache ≠ [] := by intro e; simp [e] at hc
    have := List.length_pos_iff.2 this
    simp only [left, List.length_dropLast]
    exact ⟨ht, by omega⟩
  | none =>
    obtain ⟨h1, h2⟩ := read1_left b.reader ht
    generalize b.reader.read 1 = x at h1 h2
    obtain ⟨res, r⟩ := x
    match res with
    | .error k => exact ⟨h1, by simp only [left] at *; omega, fun _ => by simp only [left] at *; omega⟩
    | .ok [] => exact ⟨h1, by simp only [left] at *; omega, fun h => absurd rfl h⟩
    | .ok (y :: ys) => exact ⟨h1, by simp only [left] at *; omega⟩

theorem attempt_left (pm : List (U8 × U8)) : ∀ (w : List U8) (b : Bytes), b.reader.tail = .eof →
    match attempt pm w b with
    | .io k b' => b'.reader.tail = .eof ∧ left b' ≤ left b ∧ (k ≠ .unexpectedEof → left b' < left b)
    | .mismatch w' b' => b'.reader.tail = .eof ∧ left b' + w'.length ≤ left b + w.length
    | .found w' b' => b'.reader.tail = .eof ∧ left b' + w'.length ≤ left b + w.length ∧ w'.length = w.length + pm.length := by
  induction pm with
  | nil => intro w b ht; exact ⟨ht, Nat.le_refl _, by simp⟩
  | cons e pm ih =>
    obtain ⟨p, m⟩ := e
    intro w b ht
    rw [attempt]
    have hn := next_left b ht
    generalize b.next = x at hn
    obtain ⟨res, b'⟩ := x
    obtain ⟨h1, h2⟩ := hn
    cases res with
    | error k => exact ⟨h1, h2⟩
    | ok y =>
      simp only at h1 h2 ⊢
      by_cases hm : y &&& m ≠ p
      · rw [if_pos hm]
        exact ⟨h1, by simp; omega⟩
      · rw [if_neg hm]
        have := ih (w ++ [y]) b' h1
        revert this
        cases attempt pm (w ++ [y]) b' with
        | io k b'' => rintro ⟨a, b, c⟩; exact ⟨a, by omega, fun h => by have := c h; omega⟩
        | mismatch w' b'' => rintro ⟨a, b⟩; exact ⟨a, by simp at b; omega⟩
        | found w' b'' => rintro ⟨a, b, c⟩; exact ⟨a, by simp at b; omega, by simp at c ⊢; omega⟩

theorem push_left (b : Bytes) (d : List U8) : left (b.push d) = left b + d.length := by
  simp [left, Bytes.push]; omega

/-- A scan that finds a marker or reports an error uses something up. -/
theorem scan_left (asm : List U8) (hasm : asm ≠ []) (s : State) : For asm s → s.bytes.reader.tail = .eof → ∀ res s', scan s = .ret (res, s') →
    s'.bytes.reader.tail = .eof ∧ left s'.bytes ≤ left s.bytes ∧ (res ≠ .ok none → left s'.bytes < left s.bytes) := by
  fun_induction scan s with
  | case1 s h8 => intro hf; have := hf.2.2; omega
  | case2 s h8 pat mask e1 e2 b hat =>
    intro hf ht res s' h
    have := attempt_left (pat.zip mask) [] s.bytes ht
    rw [hat] at this
    cases h
    exact ⟨this.1, this.2.1, by simp⟩
  | case3 s h8 pat mask e1 e2 kk b hat hk =>
    intro hf ht res s' h
    have := attempt_left (pat.zip mask) [] s.bytes ht
    rw [hat] at this
    cases h
    exact ⟨this.1, this.2.1, fun _ => this.2.2 hk⟩
  | case4 s h8 pat mask e1 e2 w b hat h7 ih =>
    intro hf ht res s' h
    have := attempt_left (pat.zip mask) [] s.bytes ht
    rw [hat] at this
    obtain ⟨h1, h2⟩ := this
    obtain ⟨k1, k2, k3⟩ := ih ⟨hf.1, hf.2.1, by simp⟩ h1 res s' h
    simp only [push_left, List.length_take, List.length_reverse] at k2 k3
    simp only [List.length_nil] at h2
    exact ⟨k1, by omega, fun h => by have := k3 h; omega⟩
  | case5 s h8 pat mask e1 e2 w b hat h7 ih =>
    intro hf ht res s' h
    have := attempt_left (pat.zip mask) [] s.bytes ht
    rw [hat] at this
    obtain ⟨h1, h2⟩ := this
    obtain ⟨k1, k2, k3⟩ := ih ⟨hf.1, hf.2.1, by have := hf.2.2; simp; omega⟩ h1 res s' h
    simp only [push_left, List.length_reverse] at k2 k3
    simp only [List.length_nil] at h2
    exact ⟨k1, by omega, fun h => by have := k3 h; omega⟩
  | case6 s h8 pat mask e1 e2 w b hat hlt => intro hf ht res s' h; cases h
  | case7 s h8 pat mask e1 e2 w b hat hlt bit offset bb b' =>
    intro hf ht res s' h
    have := attempt_left (pat.zip mask) [] s.bytes ht
    rw [hat] at this
    simp only at this
    obtain ⟨t1, t2, t3⟩ := this
    have hl : (pat.zip mask).length = asm.length + (if s.patternIdx = 0 then 0 else 1) := by
      rw [hf.1, patterns_get asm _ hf.2.2] at e2
      rw [hf.2.1, masks_get asm _ hf.2.2] at e1
      simp only [Option.some.injEq] at e1 e2
      subst e1 e2
      rw [zip_get, pmOf_length]
    have hpos := List.length_pos_iff.2 hasm
    simp only [List.length_nil, Nat.zero_add] at t2 t3
    rw [hl] at t3
    cases h
    show b'.reader.tail = .eof ∧ left b' ≤ left s.bytes ∧ (_ → left b' < left s.bytes)
    have hb : left b' < left s.bytes := by
      show left (if s.patternIdx > 0 then b.push [bb] else b) < _
      by_cases h0 : s.patternIdx = 0
      · rw [if_neg (by omega)]; rw [if_pos h0] at t3; omega
      · rw [if_pos (Nat.pos_of_ne_zero h0), push_left]; rw [if_neg h0] at t3; simp; omega
    refine ⟨?_, by omega, fun _ => hb⟩
    show (if s.patternIdx > 0 then b.push [bb] else b).reader.tail = _
    split <;> exact t1
  | case8 s h8 hno =>
    intro hf
    exact absurd (patterns_get asm _ hf.2.2) (by
      rw [← hf.1]
      intro e
      exact hno _ _ e (by rw [hf.2.1]; exact masks_get asm _ hf.2.2))

theorem fill_left (b : Bytes) (n : Nat) (ht : b.reader.tail = .eof) : (b.fill n).2.2.reader.tail = .eof ∧ left (b.fill n).2.2 ≤ left b ∧
    (0 < n → b.cache ≠ [] → (∃ x, (b.fill n).1 = .ok x) → left (b.fill n).2.2 < left b) := by
  unfold Bytes.fill
  by_cases hc : b.cache.isEmpty
  · rw [if_pos hc]
    obtain ⟨a1, a2, _⟩ := readExact_weight b.reader n
    generalize b.reader.readExact n = x at a1 a2
    obtain ⟨e, got, r⟩ := x
    simp only at a1 a2
    have : b.cache = [] := by simpa using hc
    cases e with
    | none => exact ⟨by rw [a2, ht], by simp only [left]; omega, fun _ h => absurd this h⟩
    | some k =>
      simp only
      split
      · exact ⟨by rw [a2, ht], by simp only [left]; omega, fun _ h => absurd this h⟩
      · exact ⟨by rw [a2, ht], by simp only [left]; omega, fun _ h => absurd this h⟩
  · rw [if_neg hc]
    have hne : b.cache ≠ [] := by simpa using hc
    have := List.length_pos_iff.2 hne
    by_cases hl : b.cache.length < n
    · rw [if_pos hl]
      obtain ⟨a1, a2, _⟩ := readExact_weight b.reader (n - b.cache.length)
      generalize b.reader.readExact (n - b.cache.length) = x at a1 a2
      obtain ⟨e, got, r⟩ := x
      simp only at a1 a2
      cases e with
      | none => exact ⟨by rw [a2, ht], by simp only [left, List.length_nil]; omega, fun _ _ _ => by simp only [left, List.length_nil]; omega⟩
      | some k => exact ⟨by rw [a2, ht], by simp only [left]; omega, by rintro _ _ ⟨x, h⟩; cases h⟩
    · rw [if_neg hl]
      exact ⟨ht, by simp only [left, List.length_drop]; omega, fun _ _ _ => by simp only [left, List.length_drop]; omega⟩

theorem block_left (s : State) (ht : s.bytes.reader.tail = .eof) (hc : s.patternIdx ≠ 0 → s.bytes.cache ≠ []) :
    (block s).2.bytes.reader.tail = .eof ∧ left (block s).2.bytes ≤ left s.bytes := by
  unfold block
  obtain ⟨a1, a2, a3⟩ := fill_left s.bytes (if s.patternIdx ≠ 0 then s.blockSize + 1 else s.blockSize) ht
  by_cases h0 : s.patternIdx = 0
  · simp only [h0, ne_eq, not_true, if_false] at a1 a2 a3 ⊢
    generalize s.bytes.fill s.blockSize = x at a1 a2 a3
    obtain ⟨e, buf, b⟩ := x
    cases e <;> exact ⟨a1, a2⟩
  · have a3 := fun h => a3 (by simp [h0]) (hc h0) h
    simp only [h0, ne_eq, not_false_iff, if_true] at a1 a2 a3 ⊢
    generalize s.bytes.fill (s.blockSize + 1) = x at a1 a2 a3
    obtain ⟨e, buf, b⟩ := x
    cases e with
    | error k => exact ⟨a1, a2⟩
    | ok o =>
      refine ⟨a1, ?_⟩
      have := a3 ⟨o, rfl⟩
      simp only [push_left, List.length_singleton] at this ⊢
      omega

/-- `synchronize` ends on every reader that ends, whatever errors it reports before, for every marker but the empty one. -/
theorem blocks_end (asm : List U8) (hasm : asm ≠ []) (s : Iter) (hs : Safe asm s) (ht : s.scanner.bytes.reader.tail = .eof) :
    ∃ items s', Collects next s items (some s') := by
  generalize hn : left s.scanner.bytes = n
  induction n using Nat.strongRecOn generalizing s with
  | ind n ih =>
    obtain ⟨res, s', he, hs'⟩ := next_safe asm s hs
    cases res with
    | none => exact ⟨[], s', .done he⟩
    | some it =>
      have hstep : s'.scanner.bytes.reader.tail = .eof ∧ left s'.scanner.bytes < left s.scanner.bytes := by
        unfold next at he
        cases hsc : scan s.scanner with
        | panic => rw [hsc] at he; cases he
        | ret x =>
          obtain ⟨r, sc⟩ := x
          obtain ⟨k1, k2, k3⟩ := scan_left asm hasm s.scanner hs.1 ht r sc hsc
          rw [hsc] at he
          match r with
          | .ok none => cases he
          | .error e => cases he; exact ⟨k1, k3 (by simp)⟩
          | .ok (some loc) =>
            have k3 := k3 (by simp)
            simp only at he
            split at he
            · cases he
            · obtain ⟨b1, b2⟩ := block_left sc k1 (scan_cache _ _ _ hsc)
              generalize block sc = y at he b1 b2
              obtain ⟨dr, sc'⟩ := y
              cases dr <;>
              · cases he
                exact ⟨b1, by simp only at b2 ⊢; omega⟩
      obtain ⟨items, sf, hc⟩ := ih _ (by omega) s' hs' hstep.1 rfl
      exact ⟨_, sf, .step he hc⟩

end Sync
end Ccsds
