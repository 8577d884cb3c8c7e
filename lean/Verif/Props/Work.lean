import Verif.Model.Work
import Verif.Proofs.Terminate
import Verif.Proofs.SyncSafe
/-!
# C133: finding the markers takes work proportional to the input
-/
namespace Ccsds
open Spec

namespace Sync.Work

/-! ## The count changes nothing -/

theorem scan_same (s : State) : (scan s).1 = Sync.scan s := by
  fun_induction scan s with
  | case1 s h8 => rw [Sync.scan, dif_pos h8]
  | case2 s h8 pat mask e1 e2 n k b hat =>
    rw [attempt_same] at hat
    symm
    rw [Sync.scan, dif_neg h8]
    split
    · rename_i p m e3 e4
      rw [e2] at e3; rw [e1] at e4
      cases e3; cases e4
      split <;> rename_i hat' <;> rw [hat] at hat' <;> cases hat'
      rfl
    · rename_i hno; exact absurd e1 (hno _ _ e2)
  | case3 s h8 pat mask e1 e2 n w b hat h7 r ih =>
    rw [attempt_same] at hat
    rw [Sync.scan, dif_neg h8]
    split
    · rename_i p m e3 e4
      rw [e2] at e3; rw [e1] at e4
      cases e3; cases e4
      split <;> rename_i hat' <;> rw [hat] at hat' <;> cases hat'
      rw [dif_pos h7]; exact ih
    · rename_i hno; exact absurd e1 (hno _ _ e2)
  | case4 s h8 pat mask e1 e2 n w b hat h7 r ih =>
    rw [attempt_same] at hat
    rw [Sync.scan, dif_neg h8]
    split
    · rename_i p m e3 e4
      rw [e2] at e3; rw [e1] at e4
      cases e3; cases e4
      split <;> rename_i hat' <;> rw [hat] at hat' <;> cases hat'
      rw [dif_neg h7]; exact ih
    · rename_i hno; exact absurd e1 (hno _ _ e2)
  | case5 s h8 pat mask e1 e2 n w b hat hlt =>
    rw [attempt_same] at hat
    rw [Sync.scan, dif_neg h8]
    split
    · rename_i p m e3 e4
      rw [e2] at e3; rw [e1] at e4
      cases e3; cases e4
      split <;> rename_i hat' <;> rw [hat] at hat' <;> cases hat'
      rw [if_pos hlt]
    · rename_i hno; exact absurd e1 (hno _ _ e2)
  | case6 s h8 pat mask e1 e2 n w b hat hlt =>
    rw [attempt_same] at hat
    rw [Sync.scan, dif_neg h8]
    split
    · rename_i p m e3 e4
      rw [e2] at e3; rw [e1] at e4
      cases e3; cases e4
      split <;> rename_i hat' <;> rw [hat] at hat' <;> cases hat'
      rw [if_neg hlt]
      rfl
    · rename_i hno; exact absurd e1 (hno _ _ e2)
  | case7 s h8 hno =>
    rw [Sync.scan, dif_neg h8]
    split
    · rename_i p m e3 e4; exact (hno _ _ e3 e4).elim
    · rfl

theorem next_same (s : Iter) : (next s).1 = Sync.next s := by
  unfold next Sync.next
  simp only [scan_same]
  rfl

/-! ## The bound -/

/-- What the cache and the reader still hold, in bytes. -/
theorem size_eq (b : Bytes) : b.size = b.cache.length + (evBytes b.reader.script).length := by
  unfold Bytes.size evBytes
  rw [List.length_flatMap]
  congr 2
  apply List.map_congr_left
  intro e _
  cases e <;> rfl

theorem next_size (b : Bytes) : b.next.2.size ≤ b.size := by
  unfold Bytes.next
  cases hc : b.cache.getLast? with
  | some x => simp only [Bytes.size, List.length_dropLast]; omega
  | none =>
    simp only
    have h : ∀ r : Reader, (evBytes (r.read 1).2.script).length ≤ (evBytes r.script).length := by
      rintro ⟨script, tail⟩
      unfold Reader.read
      cases script with
      | nil => cases tail <;> simp
      | cons e es =>
        cases e with
        | err k => simp [evBytes]
        | data c => simp only; split <;> simp [evBytes, Ev.bytes]
    have h := h b.reader
    generalize b.reader.read 1 = x at h
    obtain ⟨res, r⟩ := x
    match res with
    | .error k => rw [size_eq, size_eq]; simp only at *; omega
    | .ok [] => rw [size_eq, size_eq]; simp only at *; omega
    | .ok (y :: ys) => rw [size_eq, size_eq]; simp only at *; omega

/-- One run of the comparison loop: at most one comparison per byte of the pattern, and what it took it no longer holds. -/
theorem attempt_work (pm : List (U8 × U8)) : ∀ (w : List U8) (b : Bytes), (attempt pm w b).2 ≤ pm.length ∧
    match (attempt pm w b).1 with
    | .io _ b' => b'.size ≤ b.size
    | .mismatch w' b' => b'.size + w'.length ≤ b.size + w.length ∧ 0 < w'.length
    | .found w' b' => b'.size + w'.length ≤ b.size + w.length ∧ w'.length = w.length + pm.length := by
  induction pm with
  | nil => intro w b; exact ⟨Nat.le_refl _, Nat.le_refl _, rfl⟩
  | cons e pm ih =>
    obtain ⟨p, m⟩ := e
    intro w b
    rw [attempt]
    have hn := next_size b
    have hs := Bytes_next_size b
    generalize b.next = x at hn hs
    obtain ⟨res, b'⟩ := x
    cases res with
    | error k => exact ⟨by simp, hn⟩
    | ok y =>
      have hs := hs b' y rfl
      simp only
      by_cases hm : y &&& m ≠ p
      · rw [if_pos hm]
        exact ⟨by simp, by simp; omega, by simp⟩
      · rw [if_neg hm]
        obtain ⟨h1, h2⟩ := ih (w ++ [y]) b'
        refine ⟨by simp only [List.length_cons]; omega, ?_⟩
        revert h2
        simp only
        cases (attempt pm (w ++ [y]) b').1 with
        | io k b'' => intro a; simp only at *; omega
        | mismatch w' b'' => rintro ⟨a, b⟩; simp only [List.length_append, List.length_singleton] at a; exact ⟨by omega, b⟩
        | found w' b'' =>
          rintro ⟨a, b⟩
          simp only [List.length_append, List.length_singleton] at a b
          exact ⟨by omega, by simp only [List.length_cons]; omega⟩

/-- Eight patterns per byte -/
def pot (s : State) : Nat := 8 * s.bytes.size + (8 - s.patternIdx)

theorem scan_work (asm : List U8) (s : State) : For asm s → ∀ res s', (scan s).1 = .ret (res, s') →
    (scan s).2 + (asm.length + 1) * pot s' ≤ (asm.length + 1) * (pot s + 1) := by
  have hlen : ∀ (s : State) (pat mask : List U8), For asm s → s.masks[s.patternIdx]? = some mask → s.patterns[s.patternIdx]? = some pat →
      (pat.zip mask).length = asm.length + (if s.patternIdx = 0 then 0 else 1) := by
    intro s pat mask hf e1 e2
    rw [hf.1, patterns_get asm _ hf.2.2] at e2
    rw [hf.2.1, masks_get asm _ hf.2.2] at e1
    simp only [Option.some.injEq] at e1 e2
    subst e1 e2
    rw [zip_get, pmOf_length]
  have arith : ∀ c n a b, n ≤ c → a ≤ b → n + c * a ≤ c * (b + 1) := by
    intro c n a b h1 h2
    have := Nat.mul_le_mul_left c h2
    rw [Nat.mul_add]; omega
  have arith' : ∀ c n k x y z, n ≤ c → k + c * x ≤ c * (y + 1) → y + 1 ≤ z → n + k + c * x ≤ c * (z + 1) := by
    intro c n k x y z h1 h2 h3
    have := Nat.mul_le_mul_left c h3
    rw [Nat.mul_add c z]; omega
  fun_induction scan s with
  | case1 s h8 => intro hf; have := hf.2.2; omega
  | case2 s h8 pat mask e1 e2 n k b hat =>
    intro hf res s' h
    obtain ⟨h1, h2⟩ := attempt_work (pat.zip mask) [] s.bytes
    have hl := hlen s pat mask hf e1 e2
    rw [hat] at h2
    refine arith _ _ _ _ (by show (attempt (pat.zip mask) [] s.bytes).2 ≤ _; split at hl <;> omega) ?_
    simp only at h h2
    split at h <;> cases h <;> · unfold pot; simp only; omega
  | case3 s h8 pat mask e1 e2 n w b hat h7 r ih =>
    intro hf res s' h
    obtain ⟨h1, h2⟩ := attempt_work (pat.zip mask) [] s.bytes
    have hl := hlen s pat mask hf e1 e2
    rw [hat] at h2
    refine arith' _ _ _ _ _ _ (by show (attempt (pat.zip mask) [] s.bytes).2 ≤ _; split at hl <;> omega) (ih ⟨hf.1, hf.2.1, by simp⟩ res s' h) ?_
    unfold pot
    simp only [push_size, List.length_take, List.length_reverse, List.length_nil] at h2 ⊢
    omega
  | case4 s h8 pat mask e1 e2 n w b hat h7 r ih =>
    intro hf res s' h
    obtain ⟨h1, h2⟩ := attempt_work (pat.zip mask) [] s.bytes
    have hl := hlen s pat mask hf e1 e2
    have hp := hf.2.2
    rw [hat] at h2
    refine arith' _ _ _ _ _ _ (by show (attempt (pat.zip mask) [] s.bytes).2 ≤ _; split at hl <;> omega) (ih ⟨hf.1, hf.2.1, by simp only; omega⟩ res s' h) ?_
    unfold pot
    simp only [push_size, List.length_reverse, List.length_nil] at h2 ⊢
    omega
  | case5 s h8 pat mask e1 e2 n w b hat hlt => intro hf res s' h; cases h
  | case6 s h8 pat mask e1 e2 n w b hat hlt bit offset bb b' =>
    intro hf res s' h
    obtain ⟨h1, h2⟩ := attempt_work (pat.zip mask) [] s.bytes
    have hl := hlen s pat mask hf e1 e2
    rw [hat] at h2
    simp only [List.length_nil] at h2
    refine arith _ _ _ _ (by show (attempt (pat.zip mask) [] s.bytes).2 ≤ _; split at hl <;> omega) ?_
    cases h
    have : b'.size ≤ s.bytes.size := by
      show (if s.patternIdx > 0 then b.push [bb] else b).size ≤ _
      split
      · rw [push_size]; rw [if_neg (by omega)] at hl; simp only [List.length_singleton]; omega
      · omega
    unfold pot
    simp only
    omega
  | case7 s h8 hno =>
    intro hf
    exact absurd (patterns_get asm _ hf.2.2) (by
      rw [← hf.1]
      intro e
      exact hno _ _ e (by rw [hf.2.1]; exact masks_get asm _ hf.2.2))

theorem readExact_size (r : Reader) (n : Nat) : (evBytes (r.readExact n).2.2.script).length ≤ (evBytes r.script).length := by
  have : ∀ (t : Tail) (es : List Ev) (n : Nat) (acc : List U8), (evBytes (Reader.readExactGo t es n acc).2.2).length ≤ (evBytes es).length := by
    intro t es
    induction es with
    | nil =>
      intro n acc
      cases n with
      | zero => simp [Reader.readExactGo]
      | succ n => cases t <;> simp [Reader.readExactGo]
    | cons e es ih =>
      intro n acc
      cases n with
      | zero => simp [Reader.readExactGo]
      | succ n =>
        have hc : (evBytes (e :: es)).length = e.bytes.length + (evBytes es).length := by simp [evBytes]
        rw [hc]
        cases e with
        | err k =>
          simp only [Reader.readExactGo]
          split
          · have := ih (n + 1) acc; omega
          · simp
        | data c =>
          simp only [Reader.readExactGo]
          split
          · simp
          · split
            · have := ih (n + 1 - c.length) (acc ++ c); omega
            · simp [evBytes, Ev.bytes]
  exact this r.tail r.script n []

theorem fill_size (b : Bytes) (n : Nat) : (b.fill n).2.2.size ≤ b.size ∧
    (0 < n → b.cache ≠ [] → (∃ x, (b.fill n).1 = .ok x) → (b.fill n).2.2.size < b.size) := by
  unfold Bytes.fill
  by_cases hc : b.cache.isEmpty
  · rw [if_pos hc]
    have a1 := readExact_size b.reader n
    generalize b.reader.readExact n = x at a1
    obtain ⟨e, got, r⟩ := x
    simp only at a1
    have : b.cache = [] := by simpa using hc
    cases e with
    | none => exact ⟨by simp only [size_eq]; omega, fun _ h => absurd this h⟩
    | some k =>
      simp only
      split <;> exact ⟨by simp only [size_eq]; omega, fun _ h => absurd this h⟩
  · rw [if_neg hc]
    have hne : b.cache ≠ [] := by simpa using hc
    have := List.length_pos_iff.2 hne
    by_cases hl : b.cache.length < n
    · rw [if_pos hl]
      have a1 := readExact_size b.reader (n - b.cache.length)
      generalize b.reader.readExact (n - b.cache.length) = x at a1
      obtain ⟨e, got, r⟩ := x
      simp only at a1
      cases e with
      | none => exact ⟨by simp only [size_eq, List.length_nil]; omega, fun _ _ _ => by simp only [size_eq, List.length_nil]; omega⟩
      | some k => exact ⟨by simp only [size_eq]; omega, by rintro _ _ ⟨x, h⟩; cases h⟩
    · rw [if_neg hl]
      exact ⟨by simp only [size_eq, List.length_drop]; omega, fun _ _ _ => by simp only [size_eq, List.length_drop]; omega⟩

theorem block_size (s : State) (hc : s.patternIdx ≠ 0 → s.bytes.cache ≠ []) : (block s).2.bytes.size ≤ s.bytes.size ∧ (block s).2.patternIdx = s.patternIdx := by
  unfold block
  obtain ⟨a2, a3⟩ := fill_size s.bytes (if s.patternIdx ≠ 0 then s.blockSize + 1 else s.blockSize)
  by_cases h0 : s.patternIdx = 0
  · simp only [h0, ne_eq, not_true, if_false] at a2 a3 ⊢
    generalize s.bytes.fill s.blockSize = x at a2 a3
    obtain ⟨e, buf, b⟩ := x
    cases e <;> exact ⟨a2, rfl⟩
  · have a3 := fun h => a3 (by simp [h0]) (hc h0) h
    simp only [h0, ne_eq, not_false_iff, if_true] at a2 a3 ⊢
    generalize s.bytes.fill (s.blockSize + 1) = x at a2 a3
    obtain ⟨e, buf, b⟩ := x
    cases e with
    | error k => exact ⟨a2, rfl⟩
    | ok o =>
      refine ⟨?_, rfl⟩
      have := a3 ⟨o, rfl⟩
      simp only [push_size, List.length_singleton] at this ⊢
      omega

/-- One call of `next` -/
theorem next_work (asm : List U8) (s : Iter) (hf : For asm s.scanner) (res : Option (Except Error Block)) (s' : Iter) (h : (next s).1 = .ret (res, s')) :
    (next s).2 + (asm.length + 1) * pot s'.scanner ≤ (asm.length + 1) * (pot s.scanner + 1) := by
  have key := scan_work asm s.scanner hf
  have hsame := scan_same s.scanner
  unfold next at h ⊢
  simp only at h ⊢
  cases hsc : (scan s.scanner).1 with
  | panic => rw [hsc] at h; cases h
  | ret x =>
    obtain ⟨r, sc⟩ := x
    have key := key r sc hsc
    rw [hsc] at h
    match r with
    | .ok none => cases h; exact key
    | .error e => cases h; exact key
    | .ok (some loc) =>
      simp only at h
      split at h
      · cases h
      · obtain ⟨b1, b2⟩ := block_size sc (scan_cache _ _ _ (by rw [← hsame, hsc]))
        generalize block sc = y at h b1 b2
        obtain ⟨dr, sc'⟩ := y
        have hp : pot sc' ≤ pot sc := by unfold pot; simp only at b1 b2; rw [b2]; omega
        have := Nat.mul_le_mul_left (asm.length + 1) hp
        cases dr <;>
        · cases h
          simp only
          omega

end Sync.Work

open Sync

/-- The counted loop is the loop: it makes the same calls. -/
theorem C133_same (s : Iter) (items : List (Except Error Block)) (e : Option Iter) :
    Collects Sync.next s items e ↔ ∃ n, Work.Collects s items e n := by
  constructor
  · intro h
    induction h with
    | @done s s' h => exact ⟨(Work.next s).2, .done (Prod.ext (by rw [Work.next_same, h]) rfl)⟩
    | @panicked s h => exact ⟨(Work.next s).2, .panicked (Prod.ext (by rw [Work.next_same, h]) rfl)⟩
    | @step s s' a as e h _ ih =>
      obtain ⟨k, hk⟩ := ih
      exact ⟨(Work.next s).2 + k, .step (Prod.ext (by rw [Work.next_same, h]) rfl) hk⟩
  · rintro ⟨n, h⟩
    induction h with
    | done h => exact .done (by rw [← Work.next_same, h])
    | panicked h => exact .panicked (by rw [← Work.next_same, h])
    | step h _ ih => exact .step (by rw [← Work.next_same, h]) ih

theorem Sync.Work.takes_work (asm : List U8) {s t : Iter} {items : List (Except Error Block)} {n : Nat} (h : Work.Takes s items t n) (hs : Safe asm s) :
    Safe asm t ∧ n + (asm.length + 1) * Work.pot t.scanner ≤ (asm.length + 1) * (Work.pot s.scanner + items.length) := by
  induction h with
  | nil => exact ⟨hs, by simp⟩
  | @cons s s' t a as n k h _ ih =>
    have e : (Work.next s).1 = .ret (some a, s') := by rw [h]
    have e2 : (Work.next s).2 = n := by rw [h]
    have hw := Work.next_work asm s hs.1 _ _ e
    obtain ⟨res, s2, e3, hs'⟩ := next_safe asm s hs
    rw [Work.next_same, e3] at e
    cases e
    obtain ⟨ht, hk⟩ := ih hs'
    refine ⟨ht, ?_⟩
    rw [e2] at hw
    simp only [List.length_cons, Nat.mul_add, Nat.mul_one] at hw hk ⊢
    omega

/-- Whatever the reader does: for the first `k` items at most `(m + 1) · (8 · n + 8 + k)` bytes are compared, `n` being the number of bytes the reader can give and `m` the length
of the marker. -/
theorem C133_any (r : Reader) (asm : List U8) (len : Nat) (items : List (Except Error Block)) (t : Iter) (n : Nat)
    (h : Work.Takes (Sync.iter r asm len) items t n) : n ≤ (asm.length + 1) * (8 * (evBytes r.script).length + 8 + items.length) := by
  have := (Work.takes_work asm h (iter_safe r asm len)).2
  have h1 : Work.pot (Sync.iter r asm len).scanner = 8 * (evBytes r.script).length + 8 := by
    simp [Work.pot, Work.size_eq, Sync.iter, Sync.new, State.withAsm, Bytes.new]
  rw [h1] at this
  omega

/-- Every item uses up a byte or a result of the reader. -/
theorem Sync.item_left (asm : List U8) (hasm : asm ≠ []) (s s' : Iter) (a : Except Error Block) (hs : Safe asm s) (ht : s.scanner.bytes.reader.tail = .eof)
    (he : Sync.next s = .ret (some a, s')) : s'.scanner.bytes.reader.tail = .eof ∧ left s'.scanner.bytes < left s.scanner.bytes := by
  unfold Sync.next at he
  cases hsc : scan s.scanner with
  | panic => rw [hsc] at he; cases he
  | ret x =>
    obtain ⟨r, sc⟩ := x
    obtain ⟨k1, k2, k3⟩ := scan_left asm hasm s.scanner hs.1 ht r sc hsc
    rw [hsc] at he
    match r with
    | .ok none => cases he
    | .error e => cases he; exact ⟨k1, k3 (by simp)⟩
    | .ok (some loc) =>
      have k3 := k3 (by simp)
      simp only at he
      split at he
      · cases he
      · obtain ⟨b1, b2⟩ := block_left sc k1 (scan_cache _ _ _ hsc)
        generalize block sc = y at he b1 b2
        obtain ⟨dr, sc'⟩ := y
        cases dr <;>
        · cases he
          exact ⟨b1, by simp only at b2 ⊢; omega⟩

/-- From the beginning of an input that ends to its end, with a marker that is not empty: the number of bytes compared is at most proportional to the number of bytes of the input and
of results of `read` (errors among them). -/
theorem C133_total (r : Reader) (asm : List U8) (len : Nat) (hasm : asm ≠ []) (ht : r.tail = .eof) :
    ∃ items s' n, Work.Collects (Sync.iter r asm len) items (some s') n ∧ n ≤ (asm.length + 1) * (9 * (evBytes r.script).length + r.script.length + 9) := by
  have key : ∀ (s : Iter) (items : List (Except Error Block)) (e : Option Iter) (n : Nat), Work.Collects s items e n → Safe asm s → s.scanner.bytes.reader.tail = .eof →
      items.length ≤ left s.scanner.bytes ∧ n ≤ (asm.length + 1) * (Work.pot s.scanner + items.length + 1) := by
    intro s items e n h
    induction h with
    | @done s s' n h =>
      intro hs _
      have e : (Work.next s).1 = .ret (none, s') := by rw [h]
      have hw := Work.next_work asm s hs.1 _ _ e
      rw [h] at hw
      exact ⟨Nat.zero_le _, by simp only [List.length_nil, Nat.add_zero] at hw ⊢; omega⟩
    | @panicked s n h =>
      intro hs _
      obtain ⟨res, s2, e3, _⟩ := next_safe asm s hs
      rw [← Work.next_same, h] at e3
      cases e3
    | @step s s' a as e n k h _ ih =>
      intro hs hte
      have e : (Work.next s).1 = .ret (some a, s') := by rw [h]
      have hw := Work.next_work asm s hs.1 _ _ e
      obtain ⟨res, s2, e3, hs'⟩ := next_safe asm s hs
      have e4 := e
      rw [Work.next_same, e3] at e4
      cases e4
      obtain ⟨t1, t2⟩ := item_left asm hasm s s' a hs hte (by rw [e3])
      obtain ⟨i1, i2⟩ := ih hs' t1
      rw [h] at hw
      refine ⟨by simp only [List.length_cons]; omega, ?_⟩
      simp only [List.length_cons, Nat.mul_add, Nat.mul_one] at hw i2 ⊢
      omega
  obtain ⟨items, s', hc⟩ := blocks_end asm hasm (Sync.iter r asm len) (iter_safe r asm len) ht
  obtain ⟨n, hn⟩ := (C133_same _ _ _).1 hc
  obtain ⟨k1, k2⟩ := key _ _ _ _ hn (iter_safe r asm len) ht
  refine ⟨items, s', n, hn, Nat.le_trans k2 (Nat.mul_le_mul_left _ ?_)⟩
  have h1 : Work.pot (Sync.iter r asm len).scanner = 8 * (evBytes r.script).length + 8 := by
    simp [Work.pot, Work.size_eq, Sync.iter, Sync.new, State.withAsm, Bytes.new]
  have h2 : left (Sync.iter r asm len).scanner.bytes = (evBytes r.script).length + r.script.length := by
    have : ∀ es : List Ev, weight es = (evBytes es).length + es.length := by
      intro es
      induction es with
      | nil => rfl
      | cons e es ih =>
        have hc : (evBytes (e :: es)).length = e.bytes.length + (evBytes es).length := by simp [evBytes]
        rw [weight_cons, ih, hc, List.length_cons]; omega
    simp [left, Sync.iter, Sync.new, State.withAsm, Bytes.new, this]
  rw [h2] at k1
  omega

/-- With the standard marker, on an input that is read without errors: a bounded number of comparisons per byte, whatever the bytes are. -/
theorem C133_linear (r : Reader) (S : List U8) (hr : Smooth r S) (len : Nat) :
    ∃ items s' n, Work.Collects (Sync.iter r ASM len) items (some s') n ∧ n ≤ 50 * S.length + 45 := by
  obtain ⟨items, s', n, h1, h2⟩ := C133_total r ASM len (by simp [ASM]) hr.2.2
  refine ⟨items, s', n, h1, Nat.le_trans h2 ?_⟩
  have h3 : r.script.length ≤ (evBytes r.script).length := by
    have : ∀ es : List Ev, (∀ e ∈ es, ∃ c, c ≠ [] ∧ e = .data c) → es.length ≤ (evBytes es).length := by
      intro es
      induction es with
      | nil => intro _; simp
      | cons e es ih =>
        intro h
        have hc : (evBytes (e :: es)).length = e.bytes.length + (evBytes es).length := by simp [evBytes]
        obtain ⟨c, c1, rfl⟩ := h e (by simp)
        have := List.length_pos_iff.2 c1
        have := ih fun e he => h e (by simp [he])
        rw [hc, List.length_cons]
        simp only [Ev.bytes]; omega
    exact this _ hr.1
  rw [hr.2.1] at h2 h3 ⊢
  have : ASM.length = 4 := rfl
  rw [this]
  omega

/-- Ten bytes 0x1a, so that every pattern has to be tried on every one of them: at most 545 comparisons (there are 92). -/
example : ∃ items s' n, Work.Collects (Sync.iter ⟨[.data (List.replicate 10 0x1a#8)], .eof⟩ ASM 8) items (some s') n ∧ n ≤ 545 :=
  C133_linear ⟨[.data (List.replicate 10 0x1a#8)], .eof⟩ (List.replicate 10 0x1a#8)
    ⟨by intro e he; simp only [List.mem_singleton] at he; exact ⟨_, by simp, he⟩, by simp [evBytes, Ev.bytes], rfl⟩ 8

/-- A reader that fails for ever: three failed calls cost at most 5 · (8 + 3) comparisons. -/
example (items : List (Except Error Block)) (t : Iter) (n : Nat) (h : Work.Takes (Sync.iter ⟨[], .fail 5⟩ ASM 8) items t n) (hi : items.length = 3) : n ≤ 55 := by
  have := C133_any ⟨[], .fail 5⟩ ASM 8 items t n h
  rw [hi] at this
  exact this

end Ccsds
