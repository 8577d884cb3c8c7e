import Verif.Proofs.PacketDecoder
/-!
# C03 – C07: reading packets from readers
-/
namespace Ccsds
open Spec Reader

/-! ## C03  `Packet::read` -/

/-- Full statement: reading from a reader that holds the bytes of a whole packet returns what `Packet::decode` returns. -/
def C03_full : Prop := ∀ (bs : List U8) (r : Reader), r.Delivers bs → packetLen bs ≤ bs.length →
  ∃ p r', Packet.read r = .ret (.ok p, r') ∧ Packet.decode bs = .ok p

/-- True part: packets of at most 65536 bytes; the reader is left at the byte after the packet.
Missing: packets of 65537 to 65542 bytes, for which the code panics (`C03_panics_iff`, `C03_violated`). -/
theorem C03_partial (bs : List U8) (r : Reader) (hd : r.Delivers bs) (hlen : packetLen bs ≤ bs.length)
    (hmax : packetLen bs ≤ 65536) :
    ∃ p r', Packet.read r = .ret (.ok p, r') ∧ Packet.decode bs = .ok p ∧ r'.Delivers (bs.drop (packetLen bs)) := by
  obtain ⟨hg, he, ht⟩ := hd
  obtain ⟨script, tail⟩ := r
  simp only at hg he ht
  subst he ht
  obtain ⟨h, pre', e, g, b, hl, hr⟩ := read_complete .eof script [] hg hlen hmax
  simp only [List.append_nil] at hr
  have h7 := packetLen_ge (evBytes script)
  obtain ⟨h', e', d⟩ := (C02_decode (evBytes script)).2.2 (by omega) hlen
  rw [e] at e'
  injection e' with e'
  subst e'
  exact ⟨_, _, hr, d, g, b, rfl⟩

/-- `Packet::read` panics exactly when the header's length field announces more than 65536 bytes, i.e. is ≥ 65530. -/
theorem C03_panics_iff (bs : List U8) (r : Reader) (hd : r.Delivers bs) :
    Packet.read r = .panic ↔ 6 ≤ bs.length ∧ 65530 ≤ field bs 32 16 := by
  have key : (6 ≤ bs.length ∧ 65530 ≤ field bs 32 16) ↔ (6 ≤ bs.length ∧ 65536 < packetLen bs) := by
    unfold packetLen; omega
  rw [key]
  constructor
  · intro hp
    refine Classical.byContradiction fun hn => ?_
    by_cases hlen : packetLen bs ≤ bs.length
    · have h7 := packetLen_ge bs
      obtain ⟨p, r', e, _⟩ := C03_partial bs r hd hlen (by omega)
      rw [hp] at e; cases e
    · obtain ⟨hg, he, ht⟩ := hd
      obtain ⟨script, tail⟩ := r
      simp only at hg he ht
      subst he ht
      have := read_fail .eof script [] [] .unexpectedEof hg (by omega) (by omega) readExactGo_eof
      rw [List.append_nil, hp] at this; cases this
  · rintro ⟨h1, h2⟩
    obtain ⟨hg, he, ht⟩ := hd
    obtain ⟨script, tail⟩ := r
    simp only at hg he ht
    subst he ht
    have := read_panic .eof script [] hg h1 h2
    rwa [List.append_nil] at this

/-- The largest packet the standard allows: 65542 bytes. -/
def largestPacket : List U8 := [0, 0, 0, 0, 0xff, 0xff] ++ List.replicate (2 ^ 16) 0

theorem largestPacket_len : packetLen largestPacket = 65542 := by
  rw [largestPacket, packetLen_append _ _ (by simp)]; decide +kernel

/-- The code violates the full statement: a reader holding the largest packet makes `Packet::read` panic. -/
theorem C03_violated : ¬ C03_full := by
  intro h
  have hd : Reader.Delivers ⟨[.data largestPacket], .eof⟩ largestPacket :=
    ⟨by intro e he; left; exact ⟨largestPacket, (fun h => by unfold largestPacket at h; cases h), by simpa using he⟩, by simp [Ev.bytes], rfl⟩
  have hl : largestPacket.length = 65542 := by rw [largestPacket, List.length_append, List.length_replicate]; rfl
  obtain ⟨p, r', e, _⟩ := h largestPacket _ hd (by rw [largestPacket_len, hl]; omega)
  have := (C03_panics_iff _ _ hd).2 ⟨by omega, by have := largestPacket_len; unfold packetLen at this; omega⟩
  rw [this] at e; cases e

/-- Two short reads with an interrupt between them deliver one 8-byte packet. -/
example : Reader.Delivers ⟨[.data [0x0d, 0x59, 0x52], .err .interrupted, .data [0x67, 0x00, 0x01, 0xaa, 0xbb]], .eof⟩
      [0x0d, 0x59, 0x52, 0x67, 0x00, 0x01, 0xaa, 0xbb] ∧
    packetLen [0x0d, 0x59, 0x52, 0x67, 0x00, 0x01, 0xaa, 0xbb] = 8 := by
  refine ⟨⟨?_, rfl, rfl⟩, by decide +kernel⟩
  intro e he
  simp only [List.mem_cons, List.not_mem_nil, or_false] at he
  rcases he with rfl | rfl | rfl
  · exact Or.inl ⟨_, by simp, rfl⟩
  · exact Or.inr rfl
  · exact Or.inl ⟨_, by simp, rfl⟩

/-! ## C04  `decode_packets` cuts the stream into consecutive packets -/

/-- `p` is a packet as it stands on the wire: its bytes are exactly as many as its own length field says, and its header
is the decoding of its bytes. -/
def Packet.WellFormed (p : Packet) : Prop :=
  p.data.length = packetLen p.data ∧ PrimaryHeader.decode p.data = .ok p.header

/-- The bytes of a list of packets, back to back. -/
def wire (ps : List Packet) : List U8 := ps.flatMap Packet.data

/-- Each packet's recorded offset is the position of its first byte in the stream. -/
def OffsetsOk (ps : List Packet) : Prop :=
  ∀ pre p post, ps = pre ++ p :: post → p.offset = (wire pre).length

/-- Generalization over the start offset, used for the induction. -/
theorem C04_aux (n : Nat) : ∀ (bs : List U8) (r : Reader) (o : Nat), bs.length ≤ n → r.Delivers bs →
    ∃ ps rest e, Collects PacketDecoder.next ⟨r, o⟩ (ps.map .ok) e ∧ bs = wire ps ++ rest ∧
      (∀ p ∈ ps, p.WellFormed ∧ p.data.length ≤ 65536) ∧
      (∀ pre p post, ps = pre ++ p :: post → p.offset = o + (wire pre).length) ∧
      (e = none → 6 ≤ rest.length ∧ 65536 < packetLen rest) ∧
      (e ≠ none → rest.length < packetLen rest ∧ (6 ≤ rest.length → packetLen rest ≤ 65536)) := by
  induction n with
  | zero =>
    intro bs r o hl hd
    have hb : bs = [] := List.eq_nil_of_length_eq_zero (by omega)
    subst hb
    exact ⟨[], [], _, .done (next_none hd o (by simp [packetLen]) (by simp)), rfl, by simp, by simp, by simp,
      fun _ => ⟨by simp [packetLen], by simp⟩⟩
  | succ n ih =>
    intro bs r o hl hd
    have h7 := packetLen_ge bs
    by_cases hp : 6 ≤ bs.length ∧ 65536 < packetLen bs
    · exact ⟨[], bs, none, .panicked (next_panic hd o hp.1 hp.2), rfl, by simp, by simp, fun _ => hp, by simp⟩
    · by_cases hc : packetLen bs ≤ bs.length
      · obtain ⟨h, r', e, hd', hn⟩ := next_complete hd o hc (by omega)
        obtain ⟨ps, rest, x, hcol, hb, hw, ho, hx1, hx2⟩ := ih (bs.drop (packetLen bs)) r' (o + packetLen bs)
          (by simp; omega) hd'
        have hlen : (bs.take (packetLen bs)).length = packetLen bs := by simp; omega
        refine ⟨⟨h, bs.take (packetLen bs), o⟩ :: ps, rest, x, .step hn hcol, ?_, ?_, ?_, hx1, hx2⟩
        · simp only [wire, List.flatMap_cons, List.append_assoc]
          rw [show List.flatMap Packet.data ps ++ rest = wire ps ++ rest from rfl, ← hb, List.take_append_drop]
        · intro p hpm
          rcases List.mem_cons.1 hpm with rfl | hpm
          · refine ⟨⟨by rw [hlen, packetLen_take bs _ (by omega)], ?_⟩, by simp only [hlen]; omega⟩
            rw [← e]
            exact C01_prefix _ _ (by rw [hlen]; omega) (by
              rw [List.take_take, Nat.min_eq_left (by omega)])
          · exact hw p hpm
        · intro pre p post heq
          cases pre with
          | nil => simp only [List.nil_append, List.cons.injEq] at heq; simp [← heq.1, wire]
          | cons q pre =>
            simp only [List.cons_append, List.cons.injEq] at heq
            have := ho pre p post heq.2
            rw [this, ← heq.1]
            simp only [wire, List.flatMap_cons, List.length_append, hlen]
            omega
      · exact ⟨[], bs, _, .done (next_none hd o (by omega) (by omega)), rfl, by simp, by simp, by simp,
          fun _ => ⟨by omega, by omega⟩⟩

/-- Whatever way the bytes `bs` are delivered, iterating `decode_packets` yields only `Ok` packets; their bytes in order
are a prefix of the stream, each is well-formed and carries its true offset, and iteration ends (`e ≠ none`) only when
what remains is too short to be a whole packet.  The only other ending is the panic of C03, at a header announcing more
than 65536 bytes. -/
theorem C04_cut (bs : List U8) (r : Reader) (hd : r.Delivers bs) :
    ∃ ps rest e, Collects PacketDecoder.next (PacketDecoder.new r) (ps.map .ok) e ∧ bs = wire ps ++ rest ∧
      (∀ p ∈ ps, p.WellFormed) ∧ OffsetsOk ps ∧
      (e = none → 6 ≤ rest.length ∧ 65536 < packetLen rest) ∧
      (e ≠ none → rest.length < packetLen rest) := by
  obtain ⟨ps, rest, e, h1, h2, h3, h4, h5, h6⟩ := C04_aux bs.length bs r 0 (by omega) hd
  exact ⟨ps, rest, e, h1, h2, fun p hp => (h3 p hp).1, fun pre p post h => by simpa using h4 pre p post h, h5,
    fun h => (h6 h).1⟩

/-! ## C05  `decode_packets` inverts packet concatenation -/

theorem C05_aux (ps : List Packet) : ∀ (rest : List U8) (r : Reader) (o : Nat),
    (∀ p ∈ ps, p.WellFormed ∧ p.data.length ≤ 65536) → rest.length < packetLen rest →
    (6 ≤ rest.length → packetLen rest ≤ 65536) → r.Delivers (wire ps ++ rest) →
    ∃ qs s, Collects PacketDecoder.next ⟨r, o⟩ (qs.map .ok) (some s) ∧
      qs.map (fun p => (p.header, p.data)) = ps.map (fun p => (p.header, p.data)) ∧
      (∀ pre p post, qs = pre ++ p :: post → p.offset = o + (wire pre).length) := by
  induction ps with
  | nil =>
    intro rest r o _ h1 h2 hd
    exact ⟨[], _, .done (next_none hd o (by simpa [wire] using h1) (by simpa [wire] using h2)), rfl, by simp⟩
  | cons p ps ih =>
    intro rest r o hw h1 h2 hd
    have ⟨⟨hl, hh⟩, hm⟩ := hw p List.mem_cons_self
    have h7 := packetLen_ge p.data
    have hb : wire (p :: ps) ++ rest = p.data ++ (wire ps ++ rest) := by simp [wire]
    have hpl : packetLen (wire (p :: ps) ++ rest) = p.data.length := by
      rw [hb, packetLen_append _ _ (by omega), hl]
    obtain ⟨h, r', e, hd', hn⟩ := next_complete hd o (by rw [hpl, hb]; simp) (by omega)
    have hdrop : (wire (p :: ps) ++ rest).drop p.data.length = wire ps ++ rest := by
      rw [hb, List.drop_left]
    have htake : (wire (p :: ps) ++ rest).take p.data.length = p.data := by
      rw [hb, List.take_left]
    rw [hpl, hdrop] at hd'
    rw [hpl, htake] at hn
    have he : h = p.header := by
      have : PrimaryHeader.decode (wire (p :: ps) ++ rest) = PrimaryHeader.decode p.data := by
        rw [hb]; exact C01_prefix _ _ (by simp; omega) (List.take_append_of_le_length (by omega))
      rw [this, hh] at e
      injection e with e
      exact e.symm
    subst he
    obtain ⟨qs, s, hc, hq, ho⟩ := ih rest r' (o + p.data.length)
      (fun q hq => hw q (List.mem_cons_of_mem _ hq)) h1 h2 hd'
    refine ⟨⟨p.header, p.data, o⟩ :: qs, s, .step hn hc, by simp [hq], ?_⟩
    intro pre q post heq
    cases pre with
    | nil => simp only [List.nil_append, List.cons.injEq] at heq; simp [← heq.1, wire]
    | cons x pre =>
      simp only [List.cons_append, List.cons.injEq] at heq
      rw [ho pre q post heq.2, ← heq.1]
      simp only [wire, List.flatMap_cons, List.length_append]
      omega

/-- Writing any list of well-formed packets (of at most 65536 bytes, see C03) back to back, optionally followed by an
incomplete packet `rest`, and decoding from any reader that delivers these bytes returns exactly that list of packets, in
order, all `Ok`, with their offsets, and then ends. -/
theorem C05_roundtrip (ps : List Packet) (rest : List U8) (r : Reader)
    (hw : ∀ p ∈ ps, p.WellFormed ∧ p.data.length ≤ 65536)
    (hrest : rest.length < packetLen rest) (hmax : 6 ≤ rest.length → packetLen rest ≤ 65536)
    (hd : r.Delivers (wire ps ++ rest)) :
    ∃ qs s, Collects PacketDecoder.next (PacketDecoder.new r) (qs.map .ok) (some s) ∧
      qs.map (fun p => (p.header, p.data)) = ps.map (fun p => (p.header, p.data)) ∧ OffsetsOk qs := by
  obtain ⟨qs, s, h1, h2, h3⟩ := C05_aux ps rest r 0 hw hrest hmax hd
  exact ⟨qs, s, h1, h2, fun pre p post h => by simpa using h3 pre p post h⟩

/-- Two packets and the first 3 bytes of a third. -/
example : (∀ p ∈ [(⟨⟨0, 0, false, 5, 3, 7, 0⟩, [0, 5, 0xc0, 7, 0, 0, 0xab], 0⟩ : Packet),
      ⟨⟨0, 0, true, 1369, 1, 4711, 1⟩, [0x0d, 0x59, 0x52, 0x67, 0, 1, 0xaa, 0xbb], 0⟩], p.WellFormed ∧ p.data.length ≤ 65536) ∧
    [(0x0d : U8), 0x59, 0x52].length < packetLen [0x0d, 0x59, 0x52] := by
  simp only [List.mem_cons, List.not_mem_nil, or_false, forall_eq_or_imp, forall_eq]
  unfold Packet.WellFormed
  decide +kernel

/-! ## C06  `decode_packets` does not depend on chunking or interrupts -/

theorem C06_aux (n : Nat) : ∀ (bs : List U8) (r r' : Reader) (o : Nat), bs.length ≤ n → r.Delivers bs → r'.Delivers bs →
    ∃ items e e', Collects PacketDecoder.next ⟨r, o⟩ items e ∧ Collects PacketDecoder.next ⟨r', o⟩ items e' ∧
      (e = none ↔ e' = none) := by
  induction n with
  | zero =>
    intro bs r r' o hl hd hd'
    have hb : bs = [] := List.eq_nil_of_length_eq_zero (by omega)
    subst hb
    exact ⟨[], _, _, .done (next_none hd o (by simp [packetLen]) (by simp)),
      .done (next_none hd' o (by simp [packetLen]) (by simp)), by simp⟩
  | succ n ih =>
    intro bs r r' o hl hd hd'
    have h7 := packetLen_ge bs
    by_cases hp : 6 ≤ bs.length ∧ 65536 < packetLen bs
    · exact ⟨[], none, none, .panicked (next_panic hd o hp.1 hp.2), .panicked (next_panic hd' o hp.1 hp.2), by simp⟩
    · by_cases hc : packetLen bs ≤ bs.length
      · obtain ⟨h, r1, e, hd1, hn1⟩ := next_complete hd o hc (by omega)
        obtain ⟨h', r2, e2, hd2, hn2⟩ := next_complete hd' o hc (by omega)
        rw [e] at e2
        injection e2 with e2
        subst e2
        obtain ⟨items, x, x', c1, c2, hx⟩ := ih (bs.drop (packetLen bs)) r1 r2 (o + packetLen bs) (by simp; omega) hd1 hd2
        exact ⟨_, x, x', .step hn1 c1, .step hn2 c2, hx⟩
      · exact ⟨[], _, _, .done (next_none hd o (by omega) (by omega)), .done (next_none hd' o (by omega) (by omega)), by simp⟩

/-- Two readers that deliver the same bytes, with any two schedules of short reads and interrupts, yield the same items
and end the same way (normally or by the panic of C03). -/
theorem C06_chunking (bs : List U8) (r r' : Reader) (hd : r.Delivers bs) (hd' : r'.Delivers bs)
    (items : List (Except Error Packet)) (e : Option PacketDecoder)
    (h : Collects PacketDecoder.next (PacketDecoder.new r) items e) :
    ∃ e', Collects PacketDecoder.next (PacketDecoder.new r') items e' ∧ (e = none ↔ e' = none) := by
  obtain ⟨items', x, x', c1, c2, hx⟩ := C06_aux bs.length bs r r' 0 (by omega) hd hd'
  obtain ⟨rfl, rfl⟩ := h.unique c1
  exact ⟨x', c2, hx⟩

/-! ## C07  I/O errors are forwarded; iteration ends exactly at end of input -/

/-- The bytes `c` received so far are not yet a whole packet (and do not trip the assertion of C03). -/
def Partway (c : List U8) : Prop := c.length < packetLen c ∧ (6 ≤ c.length → packetLen c ≤ 65536)

/-- A failing `read` (any kind but `Interrupted`) part-way through a packet is yielded as `Some(Err(..))`, unless its kind
is `UnexpectedEof`, which ends the iterator; either way the iterator can be called again and goes on after the error.
The bytes received before the error are lost and the offset is not advanced. -/
theorem C07_error (pre rest : List Ev) (t : Tail) (k : IoKind) (o : Nat) (hg : ∀ e ∈ pre, e.Good)
    (hp : Partway (evBytes pre)) (hk : k ≠ .interrupted) :
    PacketDecoder.next ⟨⟨pre ++ .err k :: rest, t⟩, o⟩ =
      .ret (if k = .unexpectedEof then none else some (.error (.io k)), ⟨⟨rest, t⟩, o⟩) := by
  have := read_fail t pre (.err k :: rest) rest k hg hp.1 hp.2 (readExactGo_err t k hk rest)
  simp only [PacketDecoder.next, this, Error.io.injEq]
  split <;> simp_all

/-- End of input part-way through a packet (including before its first byte) ends the iterator. -/
theorem C07_eof (pre : List Ev) (o : Nat) (hg : ∀ e ∈ pre, e.Good) (hp : Partway (evBytes pre)) :
    PacketDecoder.next ⟨⟨pre, .eof⟩, o⟩ = .ret (none, ⟨⟨[], .eof⟩, o⟩) ∧
    ∀ rest t, PacketDecoder.next ⟨⟨pre ++ .data [] :: rest, t⟩, o⟩ = .ret (none, ⟨⟨rest, t⟩, o⟩) := by
  constructor
  · have := read_fail .eof pre [] [] .unexpectedEof hg hp.1 hp.2 readExactGo_eof
    simp only [List.append_nil] at this
    simp only [PacketDecoder.next, this, if_true]
  · intro rest t
    have := read_fail t pre (.data [] :: rest) rest .unexpectedEof hg hp.1 hp.2 (readExactGo_empty t rest)
    simp only [PacketDecoder.next, this, if_true]

/-- As soon as a whole packet has been received it is yielded, whatever the reader does afterwards. -/
theorem C07_packet (pre rest : List Ev) (t : Tail) (o : Nat) (hg : ∀ e ∈ pre, e.Good)
    (hlen : packetLen (evBytes pre) ≤ (evBytes pre).length) (hmax : packetLen (evBytes pre) ≤ 65536) :
    ∃ h pre', PrimaryHeader.decode (evBytes pre) = .ok h ∧
      (∀ e ∈ pre', e.Good) ∧ evBytes pre' = (evBytes pre).drop (packetLen (evBytes pre)) ∧
      PacketDecoder.next ⟨⟨pre ++ rest, t⟩, o⟩ =
        .ret (some (.ok ⟨h, (evBytes pre).take (packetLen (evBytes pre)), o⟩),
          ⟨⟨pre' ++ rest, t⟩, o + packetLen (evBytes pre)⟩) := by
  obtain ⟨h, pre', e, g, b, hl, hr⟩ := read_complete t pre rest hg hlen hmax
  refine ⟨h, pre', e, g, b, ?_⟩
  simp only [PacketDecoder.next, hr, PrimaryHeader.LEN, hl]

/-- The remaining case: the header announces more than 65536 bytes (C03). -/
theorem C07_panic (pre rest : List Ev) (t : Tail) (o : Nat) (hg : ∀ e ∈ pre, e.Good)
    (hlen : 6 ≤ (evBytes pre).length) (hmax : 65536 < packetLen (evBytes pre)) :
    PacketDecoder.next ⟨⟨pre ++ rest, t⟩, o⟩ = .panic := by
  simp only [PacketDecoder.next, read_panic t pre rest hg hlen hmax]

/-- Every reader script is covered by the cases above: read results up to the first one that is not `Good`. -/
theorem C07_cases_exhaustive (es : List Ev) :
    ∃ pre, (∀ e ∈ pre, e.Good) ∧
      (es = pre ∨ (∃ rest, es = pre ++ .data [] :: rest) ∨ ∃ k rest, k ≠ .interrupted ∧ es = pre ++ .err k :: rest) := by
  induction es with
  | nil => exact ⟨[], by simp, Or.inl rfl⟩
  | cons e es ih =>
    by_cases hgood : e.Good
    · obtain ⟨pre, hg, h⟩ := ih
      refine ⟨e :: pre, fun x hx => ?_, ?_⟩
      · rcases List.mem_cons.1 hx with rfl | hx
        · exact hgood
        · exact hg x hx
      · rcases h with rfl | ⟨rest, rfl⟩ | ⟨k, rest, hk, rfl⟩
        · exact Or.inl rfl
        · exact Or.inr (Or.inl ⟨rest, rfl⟩)
        · exact Or.inr (Or.inr ⟨k, rest, hk, rfl⟩)
    · refine ⟨[], by simp, ?_⟩
      cases e with
      | data bs =>
        by_cases hb : bs = []
        · subst hb; exact Or.inr (Or.inl ⟨es, rfl⟩)
        · exact absurd (Or.inl ⟨bs, hb, rfl⟩) hgood
      | err k =>
        refine Or.inr (Or.inr ⟨k, es, ?_, rfl⟩)
        rintro rfl
        exact hgood (Or.inr rfl)

/-- What `next` can return on a reader that never reports end of input. -/
theorem readExactGo_noeof (c : Nat) (es : List Ev) (h : ∀ e ∈ es, e ≠ .data [] ∧ e ≠ .err .unexpectedEof) :
    ∀ (n : Nat) (acc : List U8), (readExactGo (.fail c) es n acc).1 ≠ some .unexpectedEof ∧
      ∀ e ∈ (readExactGo (.fail c) es n acc).2.2, e ≠ .data [] ∧ e ≠ .err .unexpectedEof := by
  induction es with
  | nil => intro n acc; cases n <;> simp [readExactGo]
  | cons e es ih =>
    have he := h e List.mem_cons_self
    have h' : ∀ e ∈ es, e ≠ .data [] ∧ e ≠ .err .unexpectedEof := fun x hx => h x (List.mem_cons_of_mem _ hx)
    intro n acc
    cases n with
    | zero => rw [readExactGo_zero]; exact ⟨by simp, h⟩
    | succ n =>
      cases e with
      | data bs =>
        simp only [readExactGo]
        have hb : bs ≠ [] := fun hb => he.1 (by rw [hb])
        rw [if_neg hb]
        split
        · exact ih h' _ _
        · refine ⟨by simp, fun x hx => ?_⟩
          rcases List.mem_cons.1 hx with rfl | hx
          · refine ⟨?_, by simp⟩
            simp; omega
          · exact h' x hx
      | err k =>
        simp only [readExactGo]
        split
        · exact ih h' _ _
        · refine ⟨?_, h'⟩
          intro hk
          injection hk with hk
          exact he.2 (by rw [hk])

/-- A reader that, once its data are used up, fails forever and never reports end of input. -/
def NeverEof (r : Reader) : Prop :=
  (∃ c, r.tail = .fail c) ∧ ∀ e ∈ r.script, e ≠ .data [] ∧ e ≠ .err .unexpectedEof

theorem read_neverEof (r : Reader) (h : NeverEof r) (res : Except Error Packet) (r' : Reader)
    (e : Packet.read r = .ret (res, r')) : NeverEof r' ∧ res ≠ .error (.io .unexpectedEof) := by
  obtain ⟨script, tail⟩ := r
  obtain ⟨⟨c, ht⟩, hs⟩ := h
  simp only at ht hs
  subst ht
  simp only [Packet.read, readExact] at e
  have h1 := readExactGo_noeof c script hs PrimaryHeader.LEN []
  generalize readExactGo (.fail c) script PrimaryHeader.LEN [] = x at h1 e
  obtain ⟨e1, hdr, s1⟩ := x
  cases e1 with
  | some k =>
    simp only [Outcome.ret.injEq, Prod.mk.injEq] at e
    obtain ⟨rfl, rfl⟩ := e
    exact ⟨⟨⟨c, rfl⟩, h1.2⟩, fun hk => h1.1 (by injection hk with hk; injection hk with hk; simp [hk])⟩
  | none =>
    simp only at e
    cases hd : PrimaryHeader.decode hdr with
    | error e' =>
      rw [hd] at e
      simp only [Outcome.ret.injEq, Prod.mk.injEq] at e
      obtain ⟨rfl, rfl⟩ := e
      refine ⟨⟨⟨c, rfl⟩, h1.2⟩, ?_⟩
      by_cases hl : hdr.length < 6
      · rw [C01_short hdr hl] at hd; injection hd with hd; rw [← hd]; simp
      · obtain ⟨h, e', _⟩ := C01_fields hdr (by omega)
        rw [e'] at hd; cases hd
    | ok ph =>
      rw [hd] at e
      simp only at e
      have h2 := readExactGo_noeof c s1 h1.2 (PrimaryHeader.LEN + (ph.lenMinus1.toNat + 1) - PrimaryHeader.LEN) []
      generalize readExactGo (.fail c) s1 (PrimaryHeader.LEN + (ph.lenMinus1.toNat + 1) - PrimaryHeader.LEN) [] = y at h2 e
      obtain ⟨e2, body, s2⟩ := y
      split at e
      · cases e2 with
        | some k =>
          simp only [Outcome.ret.injEq, Prod.mk.injEq] at e
          obtain ⟨rfl, rfl⟩ := e
          exact ⟨⟨⟨c, rfl⟩, h2.2⟩, fun hk => h2.1 (by injection hk with hk; injection hk with hk; simp [hk])⟩
        | none =>
          simp only [Outcome.ret.injEq, Prod.mk.injEq] at e
          obtain ⟨rfl, rfl⟩ := e
          exact ⟨⟨⟨c, rfl⟩, h2.2⟩, by simp⟩
      · cases e

theorem next_neverEof (s : PacketDecoder) (h : NeverEof s.reader) :
    (∃ item s', PacketDecoder.next s = .ret (some item, s') ∧ NeverEof s'.reader) ∨ PacketDecoder.next s = .panic := by
  unfold PacketDecoder.next
  cases hr : Packet.read s.reader with
  | panic => right; rfl
  | ret x =>
    obtain ⟨res, r'⟩ := x
    obtain ⟨h1, h2⟩ := read_neverEof _ h _ _ hr
    left
    cases res with
    | ok p => exact ⟨_, _, rfl, h1⟩
    | error e =>
      have : e ≠ .io .unexpectedEof := fun he => h2 (by rw [he])
      simp only [this, if_false]
      exact ⟨_, _, rfl, h1⟩

/-- Hazard: on a reader that keeps failing the iterator never returns `None` (it goes on forever unless it panics), so a
consumer using `filter_map(Result::ok)` does not terminate. -/
theorem C07_never_ends (r : Reader) (h : NeverEof r) :
    ¬ ∃ items s, Collects PacketDecoder.next (PacketDecoder.new r) items (some s) := by
  rintro ⟨items, s, hc⟩
  have key : ∀ (s0 : PacketDecoder) (items : List (Except Error Packet)) (e : Option PacketDecoder),
      Collects PacketDecoder.next s0 items e → NeverEof s0.reader → e = none := by
    intro s0 items e hc
    induction hc with
    | done hn =>
      intro h
      rcases next_neverEof _ h with ⟨item, s', he, _⟩ | he <;> rw [he] at hn <;> simp at hn
    | panicked _ => intro _; rfl
    | step hn _ ih =>
      intro h
      rcases next_neverEof _ h with ⟨item, s', he, h'⟩ | he
      · rw [he] at hn
        injection hn with hn
        injection hn with _ hn
        subst hn
        exact ih h'
      · rw [he] at hn; cases hn
  simpa using key _ _ _ hc h

/-- … and once its data are used up it yields the same error on every call. -/
theorem C07_fails_forever (c o : Nat) :
    PacketDecoder.next ⟨⟨[], .fail c⟩, o⟩ = .ret (some (.error (.io (.other c))), ⟨⟨[], .fail c⟩, o⟩) := by
  rfl

example : NeverEof ⟨[.data [1, 2, 3], .err (.other 5), .data [4]], .fail 7⟩ := by
  refine ⟨⟨7, rfl⟩, ?_⟩
  simp

/-- Part-way through the header, part-way through the body. -/
example : Partway [] ∧ Partway [0x0d, 0x59, 0x52] ∧ Partway [0x0d, 0x59, 0x52, 0x67, 0x00, 0x01, 0xaa] := by
  unfold Partway; decide +kernel

end Ccsds
