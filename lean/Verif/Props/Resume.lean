import Verif.Props.Prompt
import Verif.Props.BitErrors
import Verif.Props.Sync
import Verif.Props.DataErrors
/-!
# C139: reading can stop after any packet and be taken up by a new iterator on the same reader; blocks only where the bytes of the stream are aligned
-/
namespace Ccsds
open Spec

/-- What `decode_packets` hands out when its byte count starts `n` higher: the same with the offset of every packet moved by `n`. -/
def movedBy (n : Nat) : Except Error Packet → Except Error Packet
  | .ok p => .ok { p with offset := p.offset + n }
  | .error e => .error e

/-- The number of bytes of the packets among these items, from their length fields: 7 more than the length field of each. -/
def bytesOf (items : List (Except Error Packet)) : Nat :=
  ((oks items).map fun p => 7 + p.header.lenMinus1.toNat).sum

theorem bytesOf_cons_ok (p : Packet) (l : List (Except Error Packet)) : bytesOf (.ok p :: l) = 7 + p.header.lenMinus1.toNat + bytesOf l := by
  simp [bytesOf, oks]

theorem bytesOf_cons_error (e : Error) (l : List (Except Error Packet)) : bytesOf (.error e :: l) = bytesOf l := by
  simp [bytesOf, oks]

/-- The byte count does not influence anything but the offsets. -/
theorem next_moved (r : Reader) (o n : Nat) : PacketDecoder.next ⟨r, o + n⟩ = match PacketDecoder.next ⟨r, o⟩ with
    | .panic => .panic
    | .ret (none, s) => .ret (none, ⟨s.reader, s.offset + n⟩)
    | .ret (some x, s) => .ret (some (movedBy n x), ⟨s.reader, s.offset + n⟩) := by
  unfold PacketDecoder.next
  cases hr : Packet.read r with
  | panic => simp
  | ret x =>
    obtain ⟨x, r'⟩ := x
    cases x with
    | ok p => simp only [movedBy, Outcome.ret.injEq, Prod.mk.injEq, PacketDecoder.mk.injEq, true_and]; omega
    | error e =>
      by_cases he : e = .io .unexpectedEof
      · simp [he]
      · simp [he, movedBy]

theorem collects_moved (n : Nat) {s : PacketDecoder} {items : List (Except Error Packet)} {e : Option PacketDecoder} (h : Collects PacketDecoder.next s items e) :
    Collects PacketDecoder.next ⟨s.reader, s.offset + n⟩ (items.map (movedBy n)) (e.map fun t => ⟨t.reader, t.offset + n⟩) := by
  induction h with
  | @done s s' h =>
    have := next_moved s.reader s.offset n
    rw [show (⟨s.reader, s.offset⟩ : PacketDecoder) = s from rfl, h] at this
    exact .done this
  | @panicked s h =>
    have := next_moved s.reader s.offset n
    rw [show (⟨s.reader, s.offset⟩ : PacketDecoder) = s from rfl, h] at this
    exact .panicked this
  | @step s s' a as e h _ ih =>
    have := next_moved s.reader s.offset n
    rw [show (⟨s.reader, s.offset⟩ : PacketDecoder) = s from rfl, h] at this
    exact .step this ih

theorem next_offset {s s' : PacketDecoder} {a : Except Error Packet} (h : PacketDecoder.next s = .ret (some a, s')) : s'.offset = s.offset + bytesOf [a] := by
  unfold PacketDecoder.next at h
  cases hr : Packet.read s.reader with
  | panic => rw [hr] at h; cases h
  | ret x =>
    obtain ⟨x, r'⟩ := x
    rw [hr] at h
    cases x with
    | ok p =>
      simp only [Outcome.ret.injEq, Prod.mk.injEq, Option.some.injEq] at h
      obtain ⟨rfl, rfl⟩ := h
      simp only [bytesOf, oks, List.filterMap_cons, List.filterMap_nil, List.map_cons, List.map_nil, List.sum_cons, List.sum_nil, PrimaryHeader.LEN]
      omega
    | error e =>
      by_cases he : e = .io .unexpectedEof
      · simp [he] at h
      · simp only [he, if_false, Outcome.ret.injEq, Prod.mk.injEq, Option.some.injEq] at h
        obtain ⟨rfl, rfl⟩ := h
        simp [bytesOf, oks]

theorem takes_offset {s t : PacketDecoder} {items : List (Except Error Packet)} (h : Takes PacketDecoder.next s items t) : t.offset = s.offset + bytesOf items := by
  induction h with
  | nil => simp [bytesOf, oks]
  | @cons s s' t a as h _ ih =>
    rw [ih, next_offset h]
    cases a with
    | ok p => rw [bytesOf_cons_ok, bytesOf_cons_ok]; simp [bytesOf, oks]; omega
    | error e => rw [bytesOf_cons_error, bytesOf_cons_error]; simp [bytesOf, oks]

theorem collects_after {S α : Type} {next : S → Outcome (Option α × S)} : ∀ {as bs : List α} {s t : S} {e : Option S}, Takes next s as t → Collects next s (as ++ bs) e →
    Collects next t bs e := by
  intro as
  induction as with
  | nil => intro bs s t e h k; cases h; exact k
  | cons a as ih =>
    intro bs s t e h k
    cases h with
    | cons h1 h2 =>
      rw [List.cons_append] at k
      cases k with
      | step k1 k2 =>
        rw [h1] at k1
        simp only [Outcome.ret.injEq, Prod.mk.injEq, true_and] at k1
        subst k1
        exact ih h2 k2

/-- C139 for packets, on any reader whatever (one that fails, is interrupted, goes on after an end of file): put an iterator down after any number of items and let a new one
continue on the same reader. It hands out exactly what the first would still have handed out (the same packets and errors, the same end, or the same panic), only with
the offsets counted from where it took over: smaller by the size of the packets handed out before. -/
theorem C139_packets (r : Reader) (taken rest again : List (Except Error Packet)) (e e' : Option PacketDecoder) (t : PacketDecoder)
    (hall : Collects PacketDecoder.next (.new r) (taken ++ rest) e) (htake : Takes PacketDecoder.next (.new r) taken t)
    (hagain : Collects PacketDecoder.next (.new t.reader) again e') :
    rest = again.map (movedBy (bytesOf taken)) ∧ e.map (·.reader) = e'.map (·.reader) := by
  have h := collects_moved (bytesOf taken) hagain
  have ht := takes_offset htake
  simp only [PacketDecoder.new, Nat.zero_add] at ht h
  rw [← ht] at h ⊢
  obtain ⟨rfl, rfl⟩ := (collects_after htake hall).unique h
  refine ⟨rfl, ?_⟩
  cases e' <;> rfl

/-- The first iterator has taken the bytes of these packets from the reader and no more: what the reader still delivers starts with the next packet. -/
theorem C139_reader {r : Reader} {bs : List U8} (hd : r.Delivers bs) (ps : List Packet) (t : PacketDecoder)
    (htake : Takes PacketDecoder.next (.new r) (ps.map .ok) t) :
    (ps.flatMap (·.data)) = bs.take (bytesOf (ps.map .ok)) ∧ t.reader.Delivers (bs.drop (bytesOf (ps.map .ok))) := by
  suffices h : ∀ (s : PacketDecoder) (bs : List U8), s.reader.Delivers bs → Takes PacketDecoder.next s (ps.map .ok) t →
      (ps.flatMap (·.data)) = bs.take (bytesOf (ps.map .ok)) ∧ t.reader.Delivers (bs.drop (bytesOf (ps.map .ok))) from h _ bs hd htake
  clear hd htake
  induction ps with
  | nil => intro s bs hd h; cases h; simpa [bytesOf, oks] using hd
  | cons p ps ih =>
    intro s bs hd h
    obtain ⟨rd, o⟩ := s
    cases h with
    | cons h1 h2 =>
      rcases Nat.lt_or_ge bs.length (packetLen bs) with hlt | hge
      · rcases Nat.lt_or_ge bs.length 6 with h6 | h6
        · rw [next_none hd o hlt (by omega)] at h1; cases h1
        · rcases Nat.lt_or_ge 65536 (packetLen bs) with hm | hm
          · rw [next_panic hd o h6 hm] at h1; cases h1
          · rw [next_none hd o hlt (fun _ => hm)] at h1; cases h1
      · rcases Nat.lt_or_ge 65536 (packetLen bs) with hm | hm
        · rw [next_panic hd o (by have := packetLen_ge bs; omega) hm] at h1; cases h1
        · obtain ⟨hh, r', _, e2, e3⟩ := next_complete hd o hge hm
          have ho := next_offset e3
          rw [e3] at h1
          simp only [Outcome.ret.injEq, Prod.mk.injEq, Option.some.injEq, Except.ok.injEq] at h1
          obtain ⟨rfl, rfl⟩ := h1
          obtain ⟨i1, i2⟩ := ih _ _ e2 h2
          have hsz : 7 + hh.lenMinus1.toNat = packetLen bs := by
            simp only [bytesOf, oks, List.filterMap_cons, List.filterMap_nil, List.map_cons, List.map_nil, List.sum_cons, List.sum_nil] at ho
            omega
          rw [List.map_cons, bytesOf_cons_ok, hsz]
          refine ⟨?_, by rwa [List.drop_drop] at i2⟩
          rw [List.flatMap_cons, i1, List.take_add]

/-- The markers after the first `k + 1` are what an ideal synchronizer finds from the end of the block behind the last of these. -/
theorem markers_drop {m s : List Bool} {skip : Nat} : ∀ {start : Nat} {ps : List Nat} {k p : Nat}, Markers m s skip start ps → ps[k]? = some p →
    Markers m s skip (p + m.length + skip) (ps.drop (k + 1)) := by
  intro start ps k p h
  induction h generalizing k with
  | none => intro hk; simp at hk
  | cons h1 h2 ih =>
    intro hk
    cases k with
    | zero =>
      simp only [List.getElem?_cons_zero, Option.some.injEq] at hk
      subst hk
      simpa using h2
    | succ k =>
      rw [List.getElem?_cons_succ] at hk
      simpa using ih hk

/-- Marker positions counted from bit `a`. -/
theorem markers_from {m s : List Bool} {skip a : Nat} : ∀ {start : Nat} {qs : List Nat}, Markers m (s.drop a) skip start qs →
    Markers m s skip (a + start) (qs.map (a + ·)) := by
  intro start qs h
  induction h with
  | @none start h =>
    refine .none fun i hi ho => h (i - a) (by omega) ?_
    rw [Sync.occurs_succ, show a + (i - a) = i by omega]
    exact ho
  | @cons start i ps h1 _ ih =>
    rw [List.map_cons]
    refine .cons ⟨by have := h1.1; omega, (Sync.occurs_succ _ _ _ _).1 h1.2.1, ?_⟩ ?_
    · intro j hj hji ho
      refine h1.2.2 (j - a) (by omega) (by omega) ?_
      rw [Sync.occurs_succ, show a + (j - a) = j by omega]
      exact ho
    · simpa [Nat.add_assoc] using ih

/-- The block iterator put down after `k + 1` blocks, the last of them whole, leaves the reader at the first byte boundary at or after the end of that block. -/
theorem C139_synchronize_reader (r : Reader) (S asm : List U8) (len : Nat) (hr : Smooth r S) (hasm : asm ≠ []) (ps : List Nat)
    (hps : Markers (bits asm) (bits S) (8 * len) 0 ps) (k p : Nat) (hk : ps[k]? = some p) (hfull : p + 8 * asm.length + 8 * len ≤ 8 * S.length)
    (taken : List (Except Error Block)) (t : Sync.Iter) (htake : Takes Sync.next (Sync.iter r asm len) taken t) (hl : taken.length = k + 1) :
    Smooth t.scanner.bytes.reader (S.drop ((p + 8 * asm.length + 8 * len + 7) / 8)) := by
  obtain ⟨script, tail⟩ := r
  obtain rfl : tail = .eof := hr.2.2
  obtain ⟨items, u, h1, h2, h3⟩ := Sync.prompt_run S asm hasm len [] .eof k (Sync.iter ⟨script, .eof⟩ asm len).scanner 0 0 0 ps p
    (Sync.at_start _ S asm len hr) (by omega) (by simpa using hps) hk hfull
  have hkl : k < ps.length := by
    rcases Nat.lt_or_ge k ps.length with h | h
    · exact h
    · rw [List.getElem?_eq_none h] at hk; cases hk
  have hlen := Sync.itemsOK_length h2
  rw [List.length_take] at hlen
  have e1 : Sync.Iter.andThen [] .eof ⟨(Sync.iter ⟨script, .eof⟩ asm len).scanner, 0⟩ = Sync.iter ⟨script, .eof⟩ asm len := by
    simp [Sync.Iter.andThen, Sync.State.andThen, Bytes.andThen, Reader.andThen, Sync.iter, Sync.new, Sync.State.withAsm, Bytes.new]
  rw [e1] at h1
  obtain ⟨_, rfl⟩ := takes_det htake h1 (by omega)
  have e2 : (Sync.Iter.andThen [] .eof u).scanner.bytes.reader = u.scanner.bytes.reader := by
    have := h3.2.2
    generalize hu : u.scanner.bytes.reader = v at this h3
    obtain ⟨vs, vt⟩ := v
    simp only at this
    subst this
    simp [Sync.Iter.andThen, Sync.State.andThen, Bytes.andThen, Reader.andThen, hu]
  rw [e2]
  exact h3

/-- C139 for blocks, exactly: a new iterator on the same reader hands out the blocks an ideal synchronizer finds from the first byte boundary at or after the end of the
last block taken, so a marker which begins in the last bits of the byte the block ends in is not found. -/
theorem C139_synchronize (r : Reader) (S asm : List U8) (len : Nat) (hr : Smooth r S) (hasm : asm ≠ []) (ps : List Nat)
    (hps : Markers (bits asm) (bits S) (8 * len) 0 ps) (k p : Nat) (hk : ps[k]? = some p) (hfull : p + 8 * asm.length + 8 * len ≤ 8 * S.length)
    (taken : List (Except Error Block)) (t : Sync.Iter) (htake : Takes Sync.next (Sync.iter r asm len) taken t) (hl : taken.length = k + 1)
    (again : List (Except Error Block)) (e : Option Sync.Iter) (hagain : Collects Sync.next (Sync.iter t.scanner.bytes.reader asm len) again e) :
    ∃ qs : List Nat, Markers (bits asm) (bits S) (8 * len) (8 * ((p + 8 * asm.length + 8 * len + 7) / 8)) qs ∧ again.length = qs.length ∧
      ∀ j q : Nat, qs[j]? = some q → q + 8 * asm.length + 8 * len ≤ 8 * S.length → ∃ b : Block, again[j]? = some (.ok b) ∧ b.data.length = len ∧
        bits b.data = ((bits S).drop (q + 8 * asm.length)).take (8 * len) := by
  have hs := C139_synchronize_reader r S asm len hr hasm ps hps k p hk hfull taken t htake hl
  generalize hn : (p + 8 * asm.length + 8 * len + 7) / 8 = n at hs ⊢
  obtain ⟨items, s', qs, h1, h2, h3⟩ := Sync.run_iter _ _ asm hasm len hs
  obtain ⟨rfl, _⟩ := hagain.unique h1
  have h2' := h2
  rw [bits_drop] at h2'
  refine ⟨qs.map (8 * n + ·), by simpa using markers_from h2', by rw [List.length_map]; exact Sync.itemsOK_length h3, ?_⟩
  intro j q hj hq
  rw [List.getElem?_map, Option.map_eq_some_iff] at hj
  obtain ⟨q', hj', rfl⟩ := hj
  obtain ⟨b, b1, b2, b3, _⟩ := C27_block_bits _ _ asm len hs hasm qs h2 again e hagain j q' hj' (by simp only [List.length_drop]; omega)
  refine ⟨b, b1, b2, ?_⟩
  rw [b3, bits_drop, List.drop_drop]
  congr 2
  omega

/-- The full claim: whenever the iterator is put down after a whole block, a new one hands out the data of the blocks the first would still have handed out. -/
def C139_full : Prop := ∀ (r : Reader) (S asm : List U8) (len : Nat), Smooth r S → asm ≠ [] → ∀ ps, Markers (bits asm) (bits S) (8 * len) 0 ps →
    ∀ k p, ps[k]? = some p → p + 8 * asm.length + 8 * len ≤ 8 * S.length →
    ∀ (taken rest again : List (Except Error Block)) (e e' : Option Sync.Iter) (t : Sync.Iter), Collects Sync.next (Sync.iter r asm len) (taken ++ rest) e →
    Takes Sync.next (Sync.iter r asm len) taken t → taken.length = k + 1 → Collects Sync.next (Sync.iter t.scanner.bytes.reader asm len) again e' →
    again.map (Except.map fun (b : Block) => b.data) = rest.map (Except.map fun (b : Block) => b.data)

theorem itemsOK_drop {S : List U8} {n len : Nat} : ∀ (ps : List Nat) (prev : Nat) (a : List (Except Error Block)) (k : Nat), Sync.ItemsOK S n len prev ps a →
    ∃ prev', Sync.ItemsOK S n len prev' (ps.drop k) (a.drop k) := by
  intro ps
  induction ps with
  | nil => intro prev a k h; cases a <;> first | exact h.elim | (simp only [List.drop_nil]; exact ⟨0, trivial⟩)
  | cons p ps ih =>
    intro prev a k h
    cases a with
    | nil => exact h.elim
    | cons x a =>
      cases k with
      | zero => exact ⟨prev, h⟩
      | succ k => simpa using ih _ a k h.2

/-- The data of the blocks at these positions does not depend on where in the stream one starts to read. -/
theorem itemsOK_data {S asm : List U8} {len : Nat} (n : Nat) (hn : n ≤ S.length) : ∀ {qs : List Nat} {prev prev' : Nat} {a c : List (Except Error Block)},
    (∀ q ∈ qs, q + 8 * asm.length ≤ 8 * S.length - 8 * n) →
    Sync.ItemsOK S asm.length len prev (qs.map (8 * n + ·)) a → Sync.ItemsOK (S.drop n) asm.length len prev' qs c →
    a.map (Except.map fun (b : Block) => b.data) = c.map (Except.map fun (b : Block) => b.data) := by
  intro qs
  induction qs with
  | nil => intro prev prev' a c _ h k; cases a <;> cases c <;> first | rfl | exact h.elim | exact k.elim
  | cons q qs ih =>
    intro prev prev' a c hb h k
    cases a with
    | nil => exact h.elim
    | cons x a =>
      cases c with
      | nil => exact k.elim
      | cons y c =>
        rw [List.map_cons, List.map_cons, ih (fun q hq => hb q (List.mem_cons_of_mem _ hq)) h.2 k.2]
        congr 1
        have hq := hb q (by simp)
        have hx : Sync.ItemOK S asm.length len prev (8 * n + q) x := h.1
        have hy : Sync.ItemOK (S.drop n) asm.length len prev' q y := k.1
        unfold Sync.ItemOK at hx hy
        simp only [List.length_drop] at hy
        by_cases hf : 8 * n + q + 8 * asm.length + 8 * len ≤ 8 * S.length
        · rw [if_pos hf] at hx
          rw [if_pos (by omega)] at hy
          obtain ⟨d, d1, d2, rfl⟩ := hx
          obtain ⟨d', d1', d2', rfl⟩ := hy
          simp only [Except.map]
          congr 1
          refine bits_inj ?_
          rw [d2, d2', bits_drop, List.drop_drop, Nat.add_assoc]
        · rw [if_neg hf] at hx
          rw [if_neg (by omega)] at hy
          by_cases h8 : q % 8 = 0
          · rw [if_pos (by omega)] at hx
            rw [if_pos h8] at hy
            subst hx hy
            simp only [Except.map, List.drop_drop, List.length_drop]
            rw [show (8 * n + q) / 8 + asm.length = n + (q / 8 + asm.length) by omega, Nat.sub_sub]
          · rw [if_neg (by omega)] at hx
            rw [if_neg h8] at hy
            subst hx hy
            rfl

/-- C139 for blocks, when the bytes of the stream are aligned at the block last taken: the new iterator hands out exactly the blocks the first would still have handed out (and
an incomplete last one the same way). -/
theorem C139_synchronize_partial (r : Reader) (S asm : List U8) (len : Nat) (hr : Smooth r S) (hasm : asm ≠ []) (ps : List Nat)
    (hps : Markers (bits asm) (bits S) (8 * len) 0 ps) (k p : Nat) (hk : ps[k]? = some p) (hfull : p + 8 * asm.length + 8 * len ≤ 8 * S.length) (hal : p % 8 = 0)
    (taken rest again : List (Except Error Block)) (e e' : Option Sync.Iter) (t : Sync.Iter) (hall : Collects Sync.next (Sync.iter r asm len) (taken ++ rest) e)
    (htake : Takes Sync.next (Sync.iter r asm len) taken t) (hl : taken.length = k + 1)
    (hagain : Collects Sync.next (Sync.iter t.scanner.bytes.reader asm len) again e') :
    again.map (Except.map fun (b : Block) => b.data) = rest.map (Except.map fun (b : Block) => b.data) := by
  have hs := C139_synchronize_reader r S asm len hr hasm ps hps k p hk hfull taken t htake hl
  generalize hn : (p + 8 * asm.length + 8 * len + 7) / 8 = n at hs
  have h8 : 8 * n = p + 8 * asm.length + 8 * len := by omega
  obtain ⟨items, s', qs, h1, h2, h3⟩ := Sync.run_iter _ _ asm hasm len hs
  obtain ⟨rfl, _⟩ := hagain.unique h1
  obtain ⟨items', s'', ps', k1, k2, k3⟩ := Sync.run_iter r S asm hasm len hr
  obtain rfl := Sync.markers_unique hps k2
  obtain ⟨rfl, _⟩ := hall.unique k1
  obtain ⟨prev', m⟩ := itemsOK_drop _ _ _ (k + 1) k3
  rw [← hl, List.drop_left, hl] at m
  have h2' := h2
  rw [bits_drop] at h2'
  have h2' := markers_from h2'
  have hd := markers_drop hps hk
  rw [bits_length, ← h8] at hd
  rw [Nat.add_zero] at h2'
  rw [Sync.markers_unique hd h2'] at m
  refine (itemsOK_data n (by omega) ?_ m h3).symm
  intro q hq
  have := (markers_room (Sync.bits_ne_nil hasm) h2).1 q hq
  simp only [bits_length, List.length_drop] at this
  omega

namespace ResumeEx

/-- Two CADUs with marker 1D and one byte of data (AA, BB), 4 bits into the stream: the block of the first ends in the middle of the byte in which the marker of the second
begins. -/
def half : List U8 := [0x01#8, 0xDA#8, 0xA1#8, 0xDB#8, 0xB0#8]

/-- The same two CADUs, byte-aligned. -/
def whole : List U8 := [0x00#8, 0x1D#8, 0xAA#8, 0x1D#8, 0xBB#8]

theorem half_markers : Markers (bits [0x1D#8]) (bits half) (8 * 1) 0 [4, 20] := by
  refine markers_of (by simp only [Occurs, List.prefix_iff_eq_take]; decide +kernel) (by decide) fun i _ => ?_
  refine BitErrorsEx.occurs_below (Sync.bits_ne_nil (by simp)) (P := fun i => ∃ p ∈ [4, 20], p ≤ i ∧ i < p + (bits [0x1D#8]).length + 8 * 1) ?_ i
  simp only [Occurs, List.prefix_iff_eq_take]
  decide +kernel

theorem whole_markers : Markers (bits [0x1D#8]) (bits whole) (8 * 1) 0 [8, 24] := by
  refine markers_of (by simp only [Occurs, List.prefix_iff_eq_take]; decide +kernel) (by decide) fun i _ => ?_
  refine BitErrorsEx.occurs_below (Sync.bits_ne_nil (by simp)) (P := fun i => ∃ p ∈ [8, 24], p ≤ i ∧ i < p + (bits [0x1D#8]).length + 8 * 1) ?_ i
  simp only [Occurs, List.prefix_iff_eq_take]
  decide +kernel

theorem half_rest : Markers (bits [0x1D#8]) (bits half) (8 * 1) 24 [] := by
  refine .none fun i hi ho => ?_
  have := BitErrorsEx.occurs_below (m := bits [0x1D#8]) (s := bits half) (Sync.bits_ne_nil (by simp)) (P := fun i => i < 24)
    (by simp only [Occurs, List.prefix_iff_eq_take]; decide +kernel) i ho
  omega

/-- A run of the iterator, cut after its first item. -/
theorem cut (S : List U8) (hr : Smooth ⟨[.data S], .eof⟩ S) (a c : Nat) (hm : Markers (bits [0x1D#8]) (bits S) (8 * 1) 0 [a, c]) :
    ∃ x y t e, Collects Sync.next (Sync.iter ⟨[.data S], .eof⟩ [0x1D#8] 1) ([x] ++ [y]) e ∧ Takes Sync.next (Sync.iter ⟨[.data S], .eof⟩ [0x1D#8] 1) [x] t := by
  obtain ⟨items, s', ps, h1, h2, h3⟩ := Sync.run_iter _ S [0x1D#8] (by simp) 1 hr
  obtain rfl := Sync.markers_unique hm h2
  have hl := Sync.itemsOK_length h3
  match items, hl with
  | [x, y], _ =>
    generalize Sync.iter ⟨[.data S], .eof⟩ [0x1D#8] 1 = s at h1 ⊢
    cases h1 with
    | step k1 k2 => exact ⟨x, y, _, _, .step k1 k2, .cons k1 .nil⟩

/-- The iterator put down after the first block of the shifted stream, and a new one on the same reader: the first would have handed out one more block, the new one hands out
nothing. -/
theorem C139_violated : ¬ C139_full := by
  intro h
  have hr : Smooth ⟨[.data half], .eof⟩ half := oneChunk_smooth _ (by simp [half])
  obtain ⟨x, y, t, e, h1, h2⟩ := cut half hr 4 20 half_markers
  have hs := C139_synchronize_reader _ half [0x1D#8] 1 hr (by simp) _ half_markers 0 4 rfl (by decide) [x] t h2 rfl
  obtain ⟨again, s', qs, k1, _, _⟩ := Sync.run_iter _ _ [0x1D#8] (by simp) 1 hs
  obtain ⟨qs', q1, q2, _⟩ := C139_synchronize _ half [0x1D#8] 1 hr (by simp) _ half_markers 0 4 rfl (by decide) [x] t h2 rfl again _ k1
  obtain rfl := Sync.markers_unique half_rest q1
  have := congrArg List.length (h _ half [0x1D#8] 1 hr (by simp) _ half_markers 0 4 rfl (by decide) [x] [y] again _ _ t h1 h2 rfl k1)
  simp only [List.length_map, List.length_cons, List.length_nil] at this q2
  omega

/-- On the aligned stream the new iterator hands out the second block. -/
example : ∃ (t : Sync.Iter) (x y : Except Error Block), Takes Sync.next (Sync.iter ⟨[.data whole], .eof⟩ [0x1D#8] 1) [x] t ∧
    ∀ again e', Collects Sync.next (Sync.iter t.scanner.bytes.reader [0x1D#8] 1) again e' →
      again.map (Except.map fun (b : Block) => b.data) = [y].map (Except.map fun (b : Block) => b.data) := by
  have hr : Smooth ⟨[.data whole], .eof⟩ whole := oneChunk_smooth _ (by simp [whole])
  obtain ⟨x, y, t, e, h1, h2⟩ := cut whole hr 8 24 whole_markers
  exact ⟨t, x, y, h2, fun again e' ha => C139_synchronize_partial _ whole [0x1D#8] 1 hr (by simp) _ whole_markers 0 8 rfl (by decide) (by decide) [x] [y] again e e' t h1 h2 rfl ha⟩

/-! Two packets of 16 and 14 bytes, in one read. -/

def two : List U8 := DataErrorsEx.longer ++ FilterEx.stream.take 14

/-- The first iterator: the first packet, and the second one at offset 16. -/
theorem first_iterator : ∃ e, Collects PacketDecoder.next (.new (.ofBytes two)) ([.ok DataErrorsEx.longerPkt] ++ [.ok (FilterEx.earlyPkt 16)]) e :=
  ⟨_, .step rfl (.step rfl (.done rfl))⟩

/-- Put down after the first packet. -/
theorem put_down : ∃ t, Takes PacketDecoder.next (.new (.ofBytes two)) ([DataErrorsEx.longerPkt].map .ok) t ∧
    ∃ e', Collects PacketDecoder.next (.new t.reader) [.ok (FilterEx.earlyPkt 0)] e' :=
  ⟨_, .cons rfl .nil, _, .step rfl (.done rfl)⟩

/-- The new iterator says offset 0 where the first would have said 16; the reader delivers the second packet. -/
example : ∃ (t : PacketDecoder) (again : List (Except Error Packet)), Takes PacketDecoder.next (.new (.ofBytes two)) [.ok DataErrorsEx.longerPkt] t ∧
    [.ok (FilterEx.earlyPkt 16)] = again.map (movedBy 16) ∧ t.reader.Delivers (two.drop 16) := by
  obtain ⟨t, ht, e', ha⟩ := put_down
  obtain ⟨e, he⟩ := first_iterator
  exact ⟨t, _, ht, (C139_packets _ _ _ _ _ _ t he ht ha).1, (C139_reader (DataErrorsEx.longer_delivers two (by decide)) _ t ht).2⟩

end ResumeEx

end Ccsds
