import Verif.Proofs.SyncSafe
/-!
# C26-C30, C58: `synchronize(reader, SyncOpts::new(length).with_asm(asm))`

`bits bs` is the bit string of a byte string, most significant bit first. `Markers m s skip 0 ps` (Spec/Sync.lean) says that
`ps` are the bit positions of the markers an ideal synchronizer visits: always the first occurrence at or after the current
position, then `skip` bits are skipped.
-/
namespace Ccsds
open Spec

/-- C26: the iterator ends after one item per marker of the ideal synchronizer, and every block's `loc` is the position of the
first bit after its marker: byte `offset` (1-based), with `bit` bits of that byte belonging to the block (0 meaning all). -/
theorem C26_first_markers (r : Reader) (S asm : List U8) (len : Nat) (hr : Smooth r S) (hasm : asm ≠ []) :
    ∃ (items : List (Except Error Block)) (s' : Sync.Iter) (ps : List Nat), Collects Sync.next (Sync.iter r asm len) items (some s') ∧
      Markers (bits asm) (bits S) (8 * len) 0 ps ∧ items.length = ps.length ∧
      ∀ (k p : Nat) (b : Block), ps[k]? = some p → items[k]? = some (.ok b) →
        b.loc.offset = (p + 8 * asm.length) / 8 + 1 ∧ b.loc.bit.toNat = (8 - (p + 8 * asm.length) % 8) % 8 := by
  obtain ⟨items, s', ps, h1, h2, h3⟩ := Sync.run_iter r S asm hasm len hr
  refine ⟨items, s', ps, h1, h2, Sync.itemsOK_length h3, ?_⟩
  intro k p b hk hb
  obtain ⟨it, e1, e2⟩ := Sync.itemsOK_get h3 hk
  rw [hb] at e1
  simp only [Option.some.injEq] at e1
  subst e1
  have ed : (p + 8 * asm.length) / 8 + 1 = p / 8 + asm.length + 1 := by omega
  have em : (p + 8 * asm.length) % 8 = p % 8 := by omega
  rw [ed, em]
  unfold Sync.ItemOK at e2
  split at e2
  · obtain ⟨data, _, _, e⟩ := e2
    simp only [Except.ok.injEq] at e
    subst e
    refine ⟨rfl, ?_⟩
    simp only [BitVec.toNat_ofNat]; omega
  · split at e2
    · rename_i h0
      simp only [Except.ok.injEq] at e2
      subst e2
      refine ⟨rfl, ?_⟩
      rw [h0]; rfl
    · simp at e2

/-- C26: the marker positions are a function of the bits of marker and stream. -/
theorem C26_positions_unique (m s : List Bool) (skip start : Nat) (ps qs : List Nat) (h : Markers m s skip start ps) (k : Markers m s skip start qs) :
    ps = qs := Sync.markers_unique h k

/-- C26: the run does not depend on how the reader cuts the stream into pieces. -/
theorem C26_chunking (r r' : Reader) (S asm : List U8) (len : Nat) (hr : Smooth r S) (hr' : Smooth r' S) (hasm : asm ≠ []) :
    ∃ items s s', Collects Sync.next (Sync.iter r asm len) items (some s) ∧ Collects Sync.next (Sync.iter r' asm len) items (some s') := by
  obtain ⟨items, s, ps, h1, h2, h3⟩ := Sync.run_iter r S asm hasm len hr
  obtain ⟨items', s', ps', h1', h2', h3'⟩ := Sync.run_iter r' S asm hasm len hr'
  obtain rfl := Sync.markers_unique h2 h2'
  have : items = items' := by
    clear h1 h1' h2 h2'
    revert h3 h3'
    generalize (0 : Nat) = prev
    induction ps generalizing items items' prev with
    | nil => intro h h'; cases items <;> cases items' <;> first | rfl | exact h.elim | exact h'.elim
    | cons p ps ih =>
      intro h h'
      cases items with
      | nil => exact h.elim
      | cons i items =>
        cases items' with
        | nil => exact h'.elim
        | cons i' items' =>
          rw [ih _ _ _ h.2 h'.2]
          congr 1
          have a := h.1
          have b := h'.1
          unfold Sync.ItemOK at a b
          split at a
          · rename_i hc
            rw [if_pos hc] at b
            obtain ⟨d, _, e1, rfl⟩ := a
            obtain ⟨d', _, e1', rfl⟩ := b
            rw [← e1'] at e1
            rw [bits_inj e1]
          · rename_i hc
            rw [if_neg hc] at b
            split at a
            · rename_i h0
              rw [if_pos h0] at b
              rw [a, b]
            · rename_i h0
              rw [if_neg h0] at b
              rw [a, b]
  subst this
  exact ⟨items, s, s', h1, h1'⟩

/-- C27: the item for the `k`-th marker, when `len` bytes worth of bits follow it, is an `Ok` block holding exactly these bits;
`last` is the distance of the offsets of this block and the one before (0 for the first block). The next marker is searched
from the bit after the block (see `Markers`). -/
theorem C27_block_bits (r : Reader) (S asm : List U8) (len : Nat) (hr : Smooth r S) (hasm : asm ≠ [])
    (ps : List Nat) (hps : Markers (bits asm) (bits S) (8 * len) 0 ps)
    (items : List (Except Error Block)) (e : Option Sync.Iter) (hrun : Collects Sync.next (Sync.iter r asm len) items e)
    (k p : Nat) (hk : ps[k]? = some p) (hfull : p + 8 * asm.length + 8 * len ≤ 8 * S.length) :
    ∃ b, items[k]? = some (.ok b) ∧ b.data.length = len ∧
      bits b.data = ((bits S).drop (p + 8 * asm.length)).take (8 * len) ∧
      b.loc.offset = (p + 8 * asm.length) / 8 + 1 ∧ b.loc.bit.toNat = (8 - (p + 8 * asm.length) % 8) % 8 ∧
      (k = 0 → b.last = 0) ∧
      (∀ j p', k = j + 1 → ps[j]? = some p' → b.last = b.loc.offset - ((p' + 8 * asm.length) / 8 + 1)) := by
  obtain ⟨items', s', ps', h1, h2, h3⟩ := Sync.run_iter r S asm hasm len hr
  obtain rfl := Sync.markers_unique hps h2
  obtain ⟨rfl, rfl⟩ := hrun.unique h1
  obtain ⟨it, e1, e2⟩ := Sync.itemsOK_get h3 hk
  unfold Sync.ItemOK at e2
  rw [if_pos hfull] at e2
  obtain ⟨data, d1, d2, rfl⟩ := e2
  have ed : ∀ p, (p + 8 * asm.length) / 8 + 1 = p / 8 + asm.length + 1 := by intro p; omega
  have em : (p + 8 * asm.length) % 8 = p % 8 := by omega
  refine ⟨_, e1, d1, d2, ?_, ?_, ?_, ?_⟩
  · rw [ed]
  · simp only [BitVec.toNat_ofNat, em]; omega
  · intro h0; subst h0; rfl
  · intro j p' hj hj'
    subst hj
    simp only [hj', Option.getD_some, ed]
    rw [if_neg (by omega)]

/-- C28: from the first marker on the stream is `(marker, block)` pairs: all blocks are recovered, in order, whatever bits they
hold, and whatever the bit alignment of the first marker. -/
theorem C28_lockstep (r : Reader) (S asm : List U8) (len : Nat) (hr : Smooth r S) (hasm : asm ≠ [])
    (pre post : List Bool) (blocks : List (List U8)) (hlen : ∀ b ∈ blocks, b.length = len)
    (hS : bits S = pre ++ blocks.flatMap (fun b => bits asm ++ bits b) ++ post)
    (hfirst : blocks ≠ [] → FirstAt (bits asm) (bits S) 0 pre.length) :
    ∃ (items : List (Except Error Block)) (s' : Sync.Iter), Collects Sync.next (Sync.iter r asm len) items (some s') ∧
      (∀ k b, blocks[k]? = some b → ∃ blk, items[k]? = some (.ok blk) ∧ blk.data = b ∧
        blk.last = (if k = 0 then 0 else asm.length + len)) ∧
      ((∀ i, pre.length + blocks.length * (8 * asm.length + 8 * len) ≤ i → ¬ Occurs (bits asm) (bits S) i) → blocks ≠ [] → items.length = blocks.length) := by
  obtain ⟨items, s', ps, h1, h2, h3⟩ := Sync.run_iter r S asm hasm len hr
  -- the marker positions
  have key : ∀ (bs : List (List U8)) (pre' : List Bool) (qs : List Nat) (start : Nat), (∀ b ∈ bs, b.length = len) →
      bits S = pre' ++ bs.flatMap (fun b => bits asm ++ bits b) ++ post → start ≤ pre'.length →
      (bs ≠ [] → FirstAt (bits asm) (bits S) start pre'.length) →
      Markers (bits asm) (bits S) (8 * len) start qs →
      (∀ k, k < bs.length → qs[k]? = some (pre'.length + k * (8 * asm.length + 8 * len))) ∧
      (bs ≠ [] → ∃ qs', qs.length = bs.length + qs'.length ∧
        Markers (bits asm) (bits S) (8 * len) (pre'.length + bs.length * (8 * asm.length + 8 * len)) qs') := by
    intro bs
    induction bs with
    | nil => intro pre' qs start _ _ _ _ hm; exact ⟨by simp, by simp⟩
    | cons b bs ih =>
      intro pre' qs start hb hS hle hf hm
      have hfi := hf (by simp)
      cases hm with
      | none hno => exact absurd hfi.2.1 (hno _ hfi.1)
      | cons hf' hrest =>
        obtain rfl := Sync.firstAt_unique hf' hfi
        rename_i i qs
        have hbl : b.length = len := hb b (by simp)
        have hl : (pre' ++ (bits asm ++ bits b)).length = pre'.length + (bits asm).length + 8 * len := by
          simp only [List.length_append, bits_length, hbl]; omega
        have hS' : bits S = (pre' ++ (bits asm ++ bits b)) ++ bs.flatMap (fun b => bits asm ++ bits b) ++ post := by
          rw [hS]; simp [List.append_assoc]
        have := ih (pre' ++ (bits asm ++ bits b)) qs (pre'.length + (bits asm).length + 8 * len) (fun b h => hb b (List.mem_cons_of_mem _ h)) hS'
          (by rw [hl]; omega) (by
            intro hne
            rw [hl]
            refine ⟨by omega, ?_, by omega⟩
            unfold Occurs
            rw [← hl, hS', List.append_assoc, List.drop_left]
            cases bs with
            | nil => exact absurd rfl hne
            | cons c cs => simp only [List.flatMap_cons, List.append_assoc]; exact List.prefix_append _ _) hrest
        rw [hl] at this
        simp only [bits_length] at this
        constructor
        · intro k hk
          cases k with
          | zero => simp
          | succ k =>
            simp only [List.getElem?_cons_succ]
            rw [this.1 k (by simpa using hk)]
            congr 1
            rw [Nat.add_mul]; omega
        · intro _
          by_cases hne : bs = []
          · subst hne
            refine ⟨qs, by simp; omega, ?_⟩
            simp only [List.length_cons, List.length_nil, Nat.zero_add, Nat.one_mul]
            rw [bits_length, Nat.add_assoc] at hrest
            exact hrest
          · obtain ⟨qs', e1, e2⟩ := this.2 hne
            refine ⟨qs', by simp only [List.length_cons]; omega, ?_⟩
            rw [List.length_cons, Nat.add_mul, Nat.one_mul]
            rw [show pre'.length + (bs.length * (8 * asm.length + 8 * len) + (8 * asm.length + 8 * len)) =
              pre'.length + 8 * asm.length + 8 * len + bs.length * (8 * asm.length + 8 * len) by omega]
            exact e2
  have hk := key blocks pre ps 0 hlen hS (by omega) hfirst h2
  have hSlen := congrArg List.length hS
  have hfm : ∀ bs : List (List U8), (∀ b ∈ bs, b.length = len) → (bs.flatMap (fun b => bits asm ++ bits b)).length = bs.length * (8 * asm.length + 8 * len) := by
    intro bs
    induction bs with
    | nil => simp
    | cons b bs ih =>
      intro hb
      rw [List.flatMap_cons, List.length_append, ih (fun b h => hb b (List.mem_cons_of_mem _ h)), List.length_append, bits_length, bits_length,
        hb b (by simp), List.length_cons, Nat.add_mul]
      omega
  refine ⟨items, s', h1, ?_, ?_⟩
  · intro k b hb
    have hkl : k < blocks.length := by
      have := (List.getElem?_eq_some_iff.1 hb).1; exact this
    have hp := hk.1 k hkl
    have hfull : pre.length + k * (8 * asm.length + 8 * len) + 8 * asm.length + 8 * len ≤ 8 * S.length := by
      simp only [bits_length, List.length_append, hfm blocks hlen] at hSlen
      have : (k + 1) * (8 * asm.length + 8 * len) ≤ blocks.length * (8 * asm.length + 8 * len) := Nat.mul_le_mul_right _ hkl
      rw [Nat.add_mul] at this
      omega
    obtain ⟨blk, b1, b2, b3, b4, b5, b6, b7⟩ := C27_block_bits r S asm len hr hasm ps h2 items _ h1 k _ hp hfull
    refine ⟨blk, b1, ?_, ?_⟩
    · apply bits_inj
      rw [b3]
      have hsplit : blocks = blocks.take k ++ b :: blocks.drop (k + 1) := by
        have hb' := (List.getElem?_eq_some_iff.1 hb)
        obtain ⟨hlt, hbe⟩ := hb'
        rw [← hbe, ← List.drop_eq_getElem_cons, List.take_append_drop]
      have hlt : (blocks.take k).length = k := by simp; omega
      have hS2 : bits S = (pre ++ (blocks.take k).flatMap (fun b => bits asm ++ bits b) ++ bits asm) ++ (bits b ++ ((blocks.drop (k + 1)).flatMap (fun b => bits asm ++ bits b) ++ post)) := by
        rw [hS]
        conv => lhs; rw [hsplit]
        simp [List.append_assoc]
      rw [hS2, List.drop_left' (by
        simp only [List.length_append, bits_length]
        rw [hfm (blocks.take k) (fun b h => hlen b (List.mem_of_mem_take h)), hlt]), List.take_left' (by
        rw [bits_length, hlen b (List.mem_of_getElem? hb)])]
    · cases k with
      | zero => simpa using b6 rfl
      | succ k =>
        rw [b7 k _ rfl (hk.1 k (by omega)), b4]
        simp only [Nat.add_eq_zero_iff, Nat.one_ne_zero, and_false, if_false]
        rw [Nat.add_mul, Nat.one_mul]
        omega
  · intro hno hne
    obtain ⟨qs', e1, e2⟩ := hk.2 hne
    have : qs' = [] := by
      cases e2 with
      | none => rfl
      | cons hf _ => exact absurd hf.2.1 (hno _ hf.1)
    subst this
    rw [Sync.itemsOK_length h3, e1]; simp

/-- C29 as documented (synchronizer.rs:229-233: "If a full block cannot be constructed the iterator simply ends"): a marker
followed by fewer bits than a block yields no item. -/
def C29_full : Prop :=
  ∀ (r : Reader) (S asm : List U8) (len : Nat), Smooth r S → asm ≠ [] →
    ∀ ps, Markers (bits asm) (bits S) (8 * len) 0 ps →
    ∀ items e, Collects Sync.next (Sync.iter r asm len) items e →
    ∀ k p, ps[k]? = some p → 8 * S.length < p + 8 * asm.length + 8 * len → items.length ≤ k

/-- C29, what the code does: the item for such a marker is the last one, and it is an `Ok` block padded with zero bytes if the
marker is byte-aligned, and an `UnexpectedEof` error otherwise. -/
theorem C29_partial (r : Reader) (S asm : List U8) (len : Nat) (hr : Smooth r S) (hasm : asm ≠ [])
    (ps : List Nat) (hps : Markers (bits asm) (bits S) (8 * len) 0 ps)
    (items : List (Except Error Block)) (e : Option Sync.Iter) (hrun : Collects Sync.next (Sync.iter r asm len) items e)
    (k p : Nat) (hk : ps[k]? = some p) (hshort : 8 * S.length < p + 8 * asm.length + 8 * len) :
    items.length = k + 1 ∧
    (p % 8 = 0 → ∃ b, items[k]? = some (.ok b) ∧
      b.data = S.drop (p / 8 + asm.length) ++ List.replicate (len - (S.length - (p / 8 + asm.length))) 0#8) ∧
    (p % 8 ≠ 0 → items[k]? = some (.error (.io .unexpectedEof))) := by
  obtain ⟨items', s', ps', h1, h2, h3⟩ := Sync.run_iter r S asm hasm len hr
  obtain rfl := Sync.markers_unique hps h2
  obtain ⟨rfl, rfl⟩ := hrun.unique h1
  obtain ⟨it, e1, e2⟩ := Sync.itemsOK_get h3 hk
  unfold Sync.ItemOK at e2
  rw [if_neg (by omega)] at e2
  refine ⟨?_, ?_, ?_⟩
  · rw [Sync.itemsOK_length h3]
    have : ∀ (k start : Nat) (qs : List Nat), Markers (bits asm) (bits S) (8 * len) start qs → qs[k]? = some p → qs.length = k + 1 := by
      intro k
      induction k with
      | zero =>
        intro start qs hm hq
        cases hm with
        | none => simp at hq
        | cons hf hrest =>
          simp only [List.getElem?_cons_zero, Option.some.injEq] at hq
          subst hq
          cases hrest with
          | none => rfl
          | cons hf' _ =>
            have := Sync.occurs_len (Sync.bits_ne_nil hasm) hf'.2.1
            have := hf'.1
            simp only [bits_length] at *
            omega
      | succ k ih =>
        intro start qs hm hq
        cases hm with
        | none => simp at hq
        | cons hf hrest =>
          simp only [List.getElem?_cons_succ] at hq
          rw [List.length_cons, ih _ _ hrest hq]
    exact this k 0 ps hps hk
  · intro h0
    rw [if_pos h0] at e2
    subst e2
    refine ⟨_, e1, ?_⟩
    simp
  · intro h0
    rw [if_neg h0] at e2
    subst e2
    exact e1

/-- A stream with one marker and a truncated block. -/
theorem c29_smooth : Smooth ⟨[.data [0x55#8, 1#8]], .eof⟩ [0x55#8, 1#8] :=
  ⟨by intro e he; simp only [List.mem_singleton] at he; exact ⟨_, by simp, he⟩, rfl, rfl⟩

theorem c29_markers : Markers (bits [0x55#8]) (bits [0x55#8, 1#8]) (8 * 4) 0 [0] := by
  refine .cons ⟨by omega, ?_, by omega⟩ (.none ?_)
  · exact ⟨bits [1#8], rfl⟩
  · exact Sync.no_occurs_of_short (Sync.bits_ne_nil (by simp)) (by simp)

/-- C29: the documented behaviour is violated: a block of 4 bytes is returned although the stream holds only one byte of it. -/
theorem C29_violated : ¬ C29_full := by
  intro h
  obtain ⟨items, s', ps, h1, h2, h3, _⟩ := C26_first_markers _ _ [0x55#8] 4 c29_smooth (by simp)
  obtain rfl := Sync.markers_unique c29_markers h2
  have := h _ _ _ 4 c29_smooth (by simp) _ c29_markers items _ h1 0 0 rfl (by simp)
  rw [h3] at this
  simp at this

/-- C30: a finite stream yields finitely many items, then `None`; there are at most as many items as markers with their blocks
fit (the last block may be truncated). -/
theorem C30_terminates (r : Reader) (S asm : List U8) (len : Nat) (hr : Smooth r S) (hasm : asm ≠ []) :
    ∃ items s', Collects Sync.next (Sync.iter r asm len) items (some s') ∧
      items.length * (asm.length + len) ≤ S.length + len := by
  obtain ⟨items, s', ps, h1, h2, h3⟩ := Sync.run_iter r S asm hasm len hr
  refine ⟨items, s', h1, ?_⟩
  have := Sync.markers_bound (Sync.bits_ne_nil hasm) h2 (by omega)
  simp only [bits_length, Nat.zero_add] at this
  rw [Sync.itemsOK_length h3]
  rw [← Nat.mul_add, ← Nat.mul_add, Nat.mul_left_comm] at this
  omega

/-- C30: it does not panic, whatever the reader does (including failing reads), whatever the marker. -/
theorem C30_no_panic (r : Reader) (asm : List U8) (len : Nat) (items : List (Except Error Block)) (e : Option Sync.Iter)
    (h : Collects Sync.next (Sync.iter r asm len) items e) : e ≠ none :=
  Sync.run_safe asm _ _ _ (Sync.iter_safe r asm len) h

/-- C30: and no call of `next` panics, in any state reachable by calling `next` any number of times (also after `None`). -/
theorem C30_no_panic_step (r : Reader) (asm : List U8) (len : Nat) (s : Sync.Iter)
    (h : ∀ P : Sync.Iter → Prop, P (Sync.iter r asm len) → (∀ s it s', P s → Sync.next s = .ret (it, s') → P s') → P s) :
    Sync.next s ≠ .panic := by
  have hs : Sync.Safe asm s := h (Sync.Safe asm) (Sync.iter_safe r asm len) (by
    intro s it s' hs e
    obtain ⟨res, s'', e2, h2⟩ := Sync.next_safe asm s hs
    rw [e] at e2
    simp only [Outcome.ret.injEq, Prod.mk.injEq] at e2
    rw [e2.2]; exact h2)
  obtain ⟨res, s', e, _⟩ := Sync.next_safe asm s hs
  rw [e]; simp

/-- C30: with an empty marker the iterator never ends, on any reader. -/
theorem C30_empty_marker (r : Reader) (len : Nat) (items : List (Except Error Block)) (e : Option Sync.Iter) :
    ¬ Collects Sync.next (Sync.iter r [] len) items e :=
  Sync.run_empty _ _ _ (Sync.iter_safe r [] len) rfl

/-- C58, full statement: `ErrorKind::Interrupted` (which by `Read`'s contract means "try again") costs nothing: the `Ok` blocks
obtained, when the caller simply goes on after an `Err` item, are those of the same stream without interruptions. -/
def C58_full : Prop :=
  ∀ (r r' : Reader) (S asm : List U8) (len : Nat), r.Delivers S → Smooth r' S → asm ≠ [] →
    ∀ items e items' e', Collects Sync.next (Sync.iter r asm len) items e → Collects Sync.next (Sync.iter r' asm len) items' e' →
      oks items = oks items'

theorem c58_run : ∃ s, Collects Sync.next (Sync.iter ⟨[.data [0x55#8], .err .interrupted, .data [0xaa#8, 7#8]], .eof⟩ [0x55#8, 0xaa#8] 1)
    [.error (.io .interrupted)] (some s) := by
  have h1 : Sync.next (Sync.iter ⟨[.data [0x55#8], .err .interrupted, .data [0xaa#8, 7#8]], .eof⟩ [0x55#8, 0xaa#8] 1) =
      .ret (some (.error (.io .interrupted)), ⟨⟨⟨⟨[.data [0xaa#8, 7#8]], .eof⟩, 1, []⟩, 1, Sync.patterns [0x55#8, 0xaa#8], Sync.masks [0x55#8, 0xaa#8], 0⟩, 0⟩) := by
    unfold Sync.next Sync.iter
    rw [Sync.scan]
    rfl
  have hat : Sync.At [0x55#8, 0xaa#8] 1 ⟨⟨⟨[.data [0xaa#8, 7#8]], .eof⟩, 1, []⟩, 1, Sync.patterns [0x55#8, 0xaa#8], Sync.masks [0x55#8, 0xaa#8], 0⟩
      [0xaa#8, 7#8] 1 0 :=
    { rep := ⟨[0xaa#8, 7#8], ⟨by intro e he; simp only [List.mem_singleton] at he; exact ⟨_, by simp, he⟩, rfl, rfl⟩, rfl, rfl⟩, pats := rfl, msks := rfl, idx := rfl,
      lt := by omega, size := rfl, cache := by simp }
  obtain ⟨s', hs'⟩ := Sync.next_end _ (by simp) 1 0 _ _ _ _ hat (by
    intro i _ hoc
    have := Sync.occurs_len (Sync.bits_ne_nil (by simp)) hoc
    simp only [bits_length, List.length_cons, List.length_nil] at this
    have h0 : i = 0 := by omega
    subst h0
    unfold Occurs at hoc
    have := List.prefix_iff_eq_take.1 hoc
    exact absurd this (by decide +kernel))
  exact ⟨s', .step h1 hs'⟩

/-- C58 is violated: an interruption between the two bytes of a marker loses the marker and its block. -/
theorem C58_violated : ¬ C58_full := by
  intro h
  obtain ⟨s, hs⟩ := c58_run
  have hsm : Smooth ⟨[.data [0x55#8, 0xaa#8, 7#8]], .eof⟩ [0x55#8, 0xaa#8, 7#8] :=
    ⟨by intro e he; simp only [List.mem_singleton] at he; exact ⟨_, by simp, he⟩, rfl, rfl⟩
  obtain ⟨items, s', ps, h1, h2, h3, _⟩ := C26_first_markers _ _ [0x55#8, 0xaa#8] 1 hsm (by simp)
  have hm : Markers (bits [0x55#8, 0xaa#8]) (bits [0x55#8, 0xaa#8, 7#8]) (8 * 1) 0 [0] := by
    refine .cons ⟨by omega, ⟨bits [7#8], rfl⟩, by omega⟩ (.none ?_)
    exact Sync.no_occurs_of_short (Sync.bits_ne_nil (by simp)) (by simp)
  obtain rfl := Sync.markers_unique hm h2
  obtain ⟨b, hb, _⟩ := C27_block_bits _ _ _ 1 hsm (by simp) _ hm items _ h1 0 0 rfl (by simp)
  have hd : Reader.Delivers ⟨[.data [0x55#8], .err .interrupted, .data [0xaa#8, 7#8]], .eof⟩ [0x55#8, 0xaa#8, 7#8] := by
    refine ⟨?_, rfl, rfl⟩
    intro e he
    simp only [List.mem_cons, List.not_mem_nil, or_false] at he
    rcases he with rfl | rfl | rfl
    · exact Or.inl ⟨_, by simp, rfl⟩
    · exact Or.inr rfl
    · exact Or.inl ⟨_, by simp, rfl⟩
  have := h _ _ _ [0x55#8, 0xaa#8] 1 hd hsm (by simp) _ _ _ _ hs h1
  match items, h3, hb with
  | [it], _, hb =>
    simp only [List.getElem?_cons_zero, Option.some.injEq] at hb
    subst hb
    simp [oks] at this

/-- C58, what does hold: read errors are never mistaken for the end of the stream. If no read reports end of file, the iterator
does not return `None` (errors come out as `Err` items) and does not panic. -/
theorem C58_partial (r : Reader) (asm : List U8) (len : Nat)
    (hr : (∀ e ∈ r.script, e ≠ .data [] ∧ e ≠ .err .unexpectedEof) ∧ r.tail ≠ .eof) (items : List (Except Error Block)) (e : Option Sync.Iter) :
    ¬ Collects Sync.next (Sync.iter r asm len) items e := by
  intro h
  cases e with
  | none => exact C30_no_panic r asm len items none h rfl
  | some s => exact Sync.endless_run (Sync.iter r asm len) items s hr h

/-- Non-vacuity of C26-C28: a stream cut in two pieces, in which the marker 0x55 first occurs at bit 1; the two blocks that follow
contain the marker's bits themselves. -/
def exStream : List U8 := [0x2a#8, 0xaa#8, 0xaa#8, 0xaa#8, 0x80#8]

example : Smooth ⟨[.data [0x2a#8], .data [0xaa#8, 0xaa#8, 0xaa#8, 0x80#8]], .eof⟩ exStream :=
  ⟨by intro e he; simp only [List.mem_cons, List.not_mem_nil, or_false] at he; rcases he with rfl | rfl <;> exact ⟨_, by simp, rfl⟩, rfl, rfl⟩

example : bits exStream = [false] ++ [[0x55#8], [0x55#8]].flatMap (fun b => bits [0x55#8] ++ bits b) ++ [false, false, false, false, false, false, false] := by decide

example : FirstAt (bits [0x55#8]) (bits exStream) 0 [false].length := by
  refine ⟨by omega, ?_, ?_⟩
  · exact List.prefix_iff_eq_take.2 (by decide)
  · intro j _ hj hoc
    have : j = 0 := by simp at hj; omega
    subst this
    exact absurd (List.prefix_iff_eq_take.1 hoc) (by decide)

end Ccsds
