import Verif.Proofs.SyncErrors
import Verif.Proofs.Streaming
import Verif.Props.Sync
/-!
# C88: what read errors do to the blocks of `synchronize`

The reader is arbitrary here: reads may be short, be interrupted, fail with any error (and later go on), or report the end of the file
early. `evBytes r.script` are the bytes it delivers in all.
-/
namespace Ccsds
open Spec

theorem sound_takes (E : List Nat) (asm : List U8) (hasm : asm ≠ []) (len : Nat) (S : List U8) (s t : Sync.Iter) (items : List (Except Error Block))
    (h : Takes Sync.next s items t) : ∀ (pos p : Nat) (x : List U8) (fresh : Bool), Sync.GAt E asm len S s.scanner pos p x → (fresh = true → x = []) →
      Sound (bits asm) (bits S) E (8 * len) (Sync.standing pos p x) fresh items := by
  induction h with
  | nil => intros; exact .nil
  | cons hn _ ih =>
    intro pos p x fresh hg hf
    obtain ⟨pos', p', x', fresh', g1, g2, g3⟩ := Sync.gitem E asm hasm len S _ _ pos p x fresh _ hg hf hn
    exact g3 _ (ih pos' p' x' fresh' g1 g2)

/-- C88, what holds: whatever the reads do, the items obtained so far (after any number of calls) are such that every `Ok` block is
consecutive bits of what the reader delivered (zeros are added only where a read reported the end of the file, and only to a block that
starts at a byte boundary), blocks come in stream order without overlap, and, until a read fails with an error other than `Interrupted`,
every block is the one behind the first marker from where the previous one ended. -/
theorem C88_partial (r : Reader) (asm : List U8) (len : Nat) (hasm : asm ≠ []) (items : List (Except Error Block)) (t : Sync.Iter)
    (h : Takes Sync.next (Sync.iter r asm len) items t) :
    Sound (bits asm) (bits (evBytes r.script)) (endsFrom r.tail 0 r.script) (8 * len) 0 true items := by
  have := sound_takes _ asm hasm len (evBytes r.script) _ t items h 0 0 [] true (Sync.giter r asm len) (fun _ => rfl)
  simpa [Sync.standing] using this

/-- The same for the whole run. -/
theorem C88_collected (r : Reader) (asm : List U8) (len : Nat) (hasm : asm ≠ []) (items : List (Except Error Block)) (e : Option Sync.Iter)
    (h : Collects Sync.next (Sync.iter r asm len) items e) :
    Sound (bits asm) (bits (evBytes r.script)) (endsFrom r.tail 0 r.script) (8 * len) 0 true items := by
  obtain ⟨t, ht⟩ := h.takes
  exact C88_partial r asm len hasm items t ht

theorem endsFrom_le (tail : Tail) (es : List Ev) : ∀ (n k : Nat), k ∈ endsFrom tail n es → k ≤ n + (evBytes es).length := by
  induction es with
  | nil => intro n k hk; simp only [endsFrom] at hk; split at hk <;> simp at hk; subst hk; simp
  | cons e es ih =>
    intro n k hk
    cases e with
    | data c =>
      rw [Sync.evBytes_cons_data]
      simp only [endsFrom] at hk
      split at hk
      · rcases List.mem_cons.1 hk with rfl | hk
        · omega
        · have := ih _ _ hk; simp only [List.length_append]; omega
      · have := ih _ _ hk; simp only [List.length_append]; omega
    | err c =>
      rw [Sync.evBytes_cons_err]
      simp only [endsFrom] at hk
      split at hk
      · rcases List.mem_cons.1 hk with rfl | hk
        · omega
        · exact ih _ _ hk
      · exact ih _ _ hk

theorem sound_sizes {m s : List Bool} {ends : List Nat} {size start : Nat} {fresh : Bool} {items : List (Except Error Block)} (hE : ∀ n ∈ ends, 8 * n ≤ s.length)
    (h : Sound m s ends size start fresh items) (b : Block) (hb : .ok b ∈ items) : 8 * b.data.length = size := by
  induction h with
  | nil => simp at hb
  | ok h1 h2 h3 _ ih =>
    rcases List.mem_cons.1 hb with e | hb
    · cases e
      have := congrArg List.length h3
      simp only [bits_length, List.length_take, List.length_drop] at this
      omega
    · exact ih hb
  | cut h1 h2 h3 h4 h5 h6 _ ih =>
    rcases List.mem_cons.1 hb with e | hb
    · cases e
      have := hE _ h3
      have := congrArg List.length h6
      simp only [bits_length, List.length_append, List.length_take, List.length_drop, List.length_replicate] at this
      omega
    · exact ih hb
  | err _ _ _ ih =>
    rcases List.mem_cons.1 hb with e | hb
    · cases e
    · exact ih hb
  | later h1 h2 h3 _ ih =>
    rcases List.mem_cons.1 hb with e | hb
    · cases e
      have := congrArg List.length h3
      simp only [bits_length, List.length_take, List.length_drop] at this
      omega
    · exact ih hb
  | laterCut h1 h2 h3 h4 h5 h6 _ ih =>
    rcases List.mem_cons.1 hb with e | hb
    · cases e
      have := hE _ h3
      have := congrArg List.length h6
      simp only [bits_length, List.length_append, List.length_take, List.length_drop, List.length_replicate] at this
      omega
    · exact ih hb

/-- C88: every block has the asked-for size, whatever the reads do. -/
theorem C88_sizes (r : Reader) (asm : List U8) (len : Nat) (hasm : asm ≠ []) (items : List (Except Error Block)) (t : Sync.Iter)
    (h : Takes Sync.next (Sync.iter r asm len) items t) (b : Block) (hb : .ok b ∈ items) : b.data.length = len := by
  have := sound_sizes (by intro n hn; rw [bits_length]; have := endsFrom_le _ _ _ _ hn; omega) (C88_partial r asm len hasm items t h) b hb
  omega

theorem sound_until {m s : List Bool} (hm : m ≠ []) {ends : List Nat} {size start : Nat} {items : List (Except Error Block)} {ps : List Nat} (hE : ∀ n ∈ ends, 8 * n = s.length)
    (h : Sound m s ends size start true items) (hps : Markers m s size start ps) :
    ∀ k : Nat, (∀ j, j ≤ k → ∃ b, items[j]? = some (.ok b)) → ∀ b, items[k]? = some (.ok b) → ∃ p, ps[k]? = some p ∧
      ((p + m.length + size ≤ s.length ∧ bits b.data = (s.drop (p + m.length)).take size) ∨
       ((p + m.length) % 8 = 0 ∧ p + m.length ≤ s.length ∧ s.length < p + m.length + size ∧
        bits b.data = s.drop (p + m.length) ++ List.replicate (p + m.length + size - s.length) false)) := by
  intro k
  induction k generalizing start items ps with
  | zero =>
    intro _ b hb
    generalize hf : true = fresh at h
    cases h with
    | nil => simp at hb
    | ok h1 h2 h3 _ =>
      simp only [List.getElem?_cons_zero, Option.some.injEq, Except.ok.injEq] at hb
      subst hb
      cases hps with
      | none k => exact absurd h1.2.1 (k _ h1.1)
      | cons k _ => obtain rfl := Sync.firstAt_unique h1 k; exact ⟨_, by simp, .inl ⟨h2, h3⟩⟩
    | cut h1 h2 h3 h4 h5 h6 _ =>
      simp only [List.getElem?_cons_zero, Option.some.injEq, Except.ok.injEq] at hb
      subst hb
      rw [hE _ h3] at h4 h5 h6
      cases hps with
      | none k => exact absurd h1.2.1 (k _ h1.1)
      | cons k _ =>
        obtain rfl := Sync.firstAt_unique h1 k
        rw [List.take_of_length_le (by simp)] at h6
        exact ⟨_, by simp, .inr ⟨h2, h4, h5, h6⟩⟩
    | err => simp at hb
    | later => cases hf
    | laterCut => cases hf
  | succ k ih =>
    intro hall b hb
    generalize hf : true = fresh at h
    have hall' : ∀ its it, items = it :: its → ∀ j, j ≤ k → ∃ b, its[j]? = some (.ok b) := by
      rintro its it rfl j hj
      simpa using hall (j + 1) (by omega)
    cases h with
    | nil => simp at hb
    | ok h1 h2 h3 h4 =>
      cases hps with
      | none k => exact absurd h1.2.1 (k _ h1.1)
      | cons k' k'' =>
        obtain rfl := Sync.firstAt_unique h1 k'
        simpa using ih h4 k'' (hall' _ _ rfl) b (by simpa using hb)
    | cut h1 h2 h3 h4 h5 h6 h7 =>
      cases hps with
      | none k => exact absurd h1.2.1 (k _ h1.1)
      | cons k' k'' =>
        obtain rfl := Sync.firstAt_unique h1 k'
        rw [hE _ h3] at h7 h5
        exfalso
        obtain ⟨b0, hb0⟩ := hall' _ _ rfl 0 (by omega)
        generalize hf' : true = fresh' at h7
        cases h7 with
        | nil => simp at hb0
        | ok g1 _ _ _ => have := Sync.occurs_len hm g1.2.1; have := g1.1; have := List.length_pos_iff.2 hm; omega
        | cut g1 => have := Sync.occurs_len hm g1.2.1; have := g1.1; have := List.length_pos_iff.2 hm; omega
        | err => simp at hb0
        | later => cases hf'
        | laterCut => cases hf'
    | err => obtain ⟨b, hb⟩ := hall 0 (by omega); simp at hb
    | later => cases hf
    | laterCut => cases hf

/-- C88: up to the first `Err` item the blocks are those of the undisturbed stream. `r` is any reader whose reads report no end of file before
all its bytes are delivered, `r'` one that delivers the same bytes without any failure. -/
theorem C88_until_error (r r' : Reader) (asm : List U8) (len : Nat) (hasm : asm ≠ [])
    (hr : ∀ n ∈ endsFrom r.tail 0 r.script, n = (evBytes r.script).length) (hr' : Smooth r' (evBytes r.script))
    (items items' : List (Except Error Block)) (t : Sync.Iter) (e' : Option Sync.Iter)
    (h : Takes Sync.next (Sync.iter r asm len) items t) (h' : Collects Sync.next (Sync.iter r' asm len) items' e')
    (k : Nat) (hk : ∀ j, j ≤ k → ∃ b, items[j]? = some (.ok b)) :
    ∃ b b', items[k]? = some (.ok b) ∧ items'[k]? = some (.ok b') ∧ b.data = b'.data := by
  have hs := C88_partial r asm len hasm items t h
  obtain ⟨its, s', ps, h1, h2, h3⟩ := C26_first_markers r' _ asm len hr' hasm
  obtain ⟨rfl, rfl⟩ := h'.unique h1
  obtain ⟨b, hb⟩ := hk k (Nat.le_refl _)
  obtain ⟨p, hp, hc⟩ := sound_until (Sync.bits_ne_nil hasm) (by intro n hn; rw [bits_length, hr n hn]) hs h2 k hk b hb
  simp only [bits_length] at hc
  rcases hc with ⟨c1, c2⟩ | ⟨c1, c2, c3, c4⟩
  · obtain ⟨b', g1, _, g2, _⟩ := C27_block_bits r' _ asm len hr' hasm ps h2 items' _ h' k p hp c1
    exact ⟨b, b', hb, g1, bits_inj (by rw [c2, g2])⟩
  · obtain ⟨_, g, _⟩ := C29_partial r' _ asm len hr' hasm ps h2 items' _ h' k p hp c3
    obtain ⟨b', g1, g2⟩ := g (by omega)
    refine ⟨b, b', hb, g1, bits_inj ?_⟩
    rw [c4, g2, bits_append, bits_drop, Sync.bits_zeros, show 8 * (p / 8 + asm.length) = p + 8 * asm.length from by omega]
    congr 2
    omega

/-- C88, full statement: every block handed out is what follows an occurrence of the marker in the delivered bytes (or, cut off by an end
of file, the beginning of it). -/
def C88_full : Prop :=
  ∀ (r : Reader) (asm : List U8) (len : Nat), asm ≠ [] → ∀ items t, Takes Sync.next (Sync.iter r asm len) items t → ∀ b, .ok b ∈ items →
    ∃ i n, n ≤ 8 * len ∧ Occurs (bits asm) (bits (evBytes r.script)) i ∧
      bits b.data = ((bits (evBytes r.script)).drop (i + 8 * asm.length)).take n ++ List.replicate (8 * len - n) false ∧
      (n < 8 * len → ∃ e ∈ endsFrom r.tail 0 r.script, i + 8 * asm.length + n = 8 * e)

/-- The witness: the marker 0x55 is found at bit 1, the read of its two-byte block fails with one byte delivered, and the reader goes on with the bytes
80 12 34. -/
def c88_reader : Reader := ⟨[.data [0x2a#8, 0xaa#8, 0x00#8], .err (.other 5), .data [0x80#8, 0x12#8, 0x34#8]], .eof⟩

theorem c88_run : ∃ t, Takes Sync.next (Sync.iter c88_reader [0x55#8] 2) [.error (.io (.other 5)), .ok ⟨1, ⟨3, 7#8⟩, [0x00#8, 0x24#8]⟩] t := by
  have h0 : Sync.scan (Sync.iter c88_reader [0x55#8] 2).scanner = Sync.scan ⟨⟨⟨[.data [0xaa#8, 0x00#8], .err (.other 5), .data [0x80#8, 0x12#8, 0x34#8]], .eof⟩, 1, [0x2a#8]⟩, 2,
      Sync.patterns [0x55#8], Sync.masks [0x55#8], 1⟩ := by
    rw [Sync.scan]
    rfl
  have h1 : Sync.next (Sync.iter c88_reader [0x55#8] 2) =
      .ret (some (.error (.io (.other 5))), ⟨⟨⟨⟨[.data [0x80#8, 0x12#8, 0x34#8]], .eof⟩, 2, [0xaa#8]⟩, 2, Sync.patterns [0x55#8], Sync.masks [0x55#8], 1⟩, 2⟩) := by
    unfold Sync.next
    rw [h0, Sync.scan]
    rfl
  refine ⟨⟨⟨⟨⟨[], .eof⟩, 5, [0x34#8]⟩, 2, Sync.patterns [0x55#8], Sync.masks [0x55#8], 1⟩, 3⟩, .cons h1 (.cons ?_ .nil)⟩
  unfold Sync.next
  rw [Sync.scan]
  rfl

/-- C88 is violated: the block 00 24 follows bits 00000001, not the marker. -/
theorem C88_violated : ¬ C88_full := by
  intro h
  obtain ⟨t, ht⟩ := c88_run
  obtain ⟨i, n, h0, h1, h2, h3⟩ := h _ _ 2 (by simp) _ t ht ⟨1, ⟨3, 7#8⟩, [0x00#8, 0x24#8]⟩ (by simp)
  have hl := Sync.occurs_len (Sync.bits_ne_nil (by simp)) h1
  have hS : evBytes c88_reader.script = [0x2a#8, 0xaa#8, 0x00#8, 0x80#8, 0x12#8, 0x34#8] := rfl
  rw [hS] at h1 h2 hl
  simp only [bits_length, List.length_cons, List.length_nil] at hl h2 h3
  have h1' := List.prefix_iff_eq_take.1 h1
  have key1 : ∀ i : Fin 41, bits [0x55#8] = ((bits [0x2a#8, 0xaa#8, 0x00#8, 0x80#8, 0x12#8, 0x34#8]).drop i).take 8 → i.val < 24 := by decide +kernel
  have hi := key1 ⟨i, by omega⟩ h1'
  have hn : n = 16 := by
    apply Nat.le_antisymm (by omega)
    apply Nat.le_of_not_lt
    intro hlt
    obtain ⟨e, he, h4⟩ := h3 (by omega)
    have : e = 6 := by simpa [c88_reader, endsFrom] using he
    simp only at hi
    omega
  subst hn
  have key : ∀ i : Fin 41, ¬ (bits [0x55#8] = ((bits [0x2a#8, 0xaa#8, 0x00#8, 0x80#8, 0x12#8, 0x34#8]).drop i).take 8 ∧
      bits [0x00#8, 0x24#8] = ((bits [0x2a#8, 0xaa#8, 0x00#8, 0x80#8, 0x12#8, 0x34#8]).drop (i + 8)).take 16) := by decide +kernel
  exact key ⟨i, by omega⟩ ⟨h1', by simpa using h2⟩

/-- The hypotheses of `C88_until_error` are met: one block before the error. -/
def c88_reader' : Reader := ⟨[.data [0x55#8, 1#8], .err (.other 5), .data [0x55#8, 2#8]], .eof⟩

theorem c88_run' : ∃ t, Takes Sync.next (Sync.iter c88_reader' [0x55#8] 1) [.ok ⟨0, ⟨2, 0#8⟩, [1#8]⟩, .error (.io (.other 5)), .ok ⟨2, ⟨4, 0#8⟩, [2#8]⟩] t := by
  have h1 : Sync.next (Sync.iter c88_reader' [0x55#8] 1) = .ret (some (.ok ⟨0, ⟨2, 0#8⟩, [1#8]⟩),
      ⟨⟨⟨⟨[.err (.other 5), .data [0x55#8, 2#8]], .eof⟩, 2, []⟩, 1, Sync.patterns [0x55#8], Sync.masks [0x55#8], 0⟩, 2⟩) := by
    unfold Sync.next
    rw [Sync.scan]
    rfl
  have h2 : Sync.next ⟨⟨⟨⟨[.err (.other 5), .data [0x55#8, 2#8]], .eof⟩, 2, []⟩, 1, Sync.patterns [0x55#8], Sync.masks [0x55#8], 0⟩, 2⟩ =
      .ret (some (.error (.io (.other 5))), ⟨⟨⟨⟨[.data [0x55#8, 2#8]], .eof⟩, 2, []⟩, 1, Sync.patterns [0x55#8], Sync.masks [0x55#8], 0⟩, 2⟩) := by
    unfold Sync.next
    rw [Sync.scan]
    rfl
  refine ⟨⟨⟨⟨⟨[], .eof⟩, 4, []⟩, 1, Sync.patterns [0x55#8], Sync.masks [0x55#8], 0⟩, 4⟩, .cons h1 (.cons h2 (.cons ?_ .nil))⟩
  unfold Sync.next
  rw [Sync.scan]
  rfl

example : (∀ n ∈ endsFrom c88_reader'.tail 0 c88_reader'.script, n = (evBytes c88_reader'.script).length) ∧
    Smooth ⟨[.data [0x55#8, 1#8, 0x55#8, 2#8]], .eof⟩ (evBytes c88_reader'.script) ∧
    (∃ items e, Collects Sync.next (Sync.iter ⟨[.data [0x55#8, 1#8, 0x55#8, 2#8]], .eof⟩ [0x55#8] 1) items e) :=
  ⟨by decide, ⟨by intro e he; simp only [List.mem_singleton] at he; exact ⟨_, by simp, he⟩, rfl, rfl⟩, by
    obtain ⟨items, s, _, h, _⟩ := C26_first_markers ⟨[.data [0x55#8, 1#8, 0x55#8, 2#8]], .eof⟩ _ [0x55#8] 1
      ⟨by intro e he; simp only [List.mem_singleton] at he; exact ⟨_, by simp, he⟩, rfl, rfl⟩ (by simp)
    exact ⟨items, _, h⟩⟩

end Ccsds
