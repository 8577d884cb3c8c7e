import Verif.Proofs.SpacePacket
/-!
# C01, C02: primary header and packet decoding
-/
namespace Ccsds
open Spec

/-! ## C01  `PrimaryHeader::decode` is the exact CCSDS bit layout -/

/-- Every buffer of at least 6 bytes decodes, and the fields are the bit fields of the standard. -/
theorem C01_fields (bs : List U8) (hlen : 6 ≤ bs.length) :
    ∃ h, PrimaryHeader.decode bs = .ok h ∧
      h.version.toNat = field bs 0 3 ∧
      h.typeFlag.toNat = field bs 3 1 ∧
      h.hasSecondaryHeader.toNat = field bs 4 1 ∧
      h.apid.toNat = field bs 5 11 ∧
      h.sequenceFlags.toNat = field bs 16 2 ∧
      h.sequenceId.toNat = field bs 18 14 ∧
      h.lenMinus1.toNat = field bs 32 16 := by
  match bs, hlen with
  | b0 :: b1 :: b2 :: b3 :: b4 :: b5 :: rest, _ =>
    obtain ⟨h, e, h1, h2, h3, h4, h5, h6, h7⟩ := decode_eq6 b0 b1 b2 b3 b4 b5 rest
    refine ⟨h, e, ?_⟩
    have key : ∀ s w, s + w ≤ 48 → field (b0 :: b1 :: b2 :: b3 :: b4 :: b5 :: rest) s w
        = (b0.toNat * 1099511627776 + b1.toNat * 4294967296 + b2.toNat * 16777216 + b3.toNat * 65536 + b4.toNat * 256
            + b5.toNat) / 2 ^ (48 - s - w) % 2 ^ w := by
      intro s w hsw
      rw [← field_take _ 6 s w (by omega)]
      simp only [List.take_succ_cons, List.take_zero]
      rw [field_eq _ _ _ (by simpa using hsw), bits6]
      simp
    have i0 := b0.isLt
    have i1 := b1.isLt
    have i2 := b2.isLt
    have i3 := b3.isLt
    have i4 := b4.isLt
    have i5 := b5.isLt
    rw [key 0 3 (by omega), key 3 1 (by omega), key 4 1 (by omega), key 5 11 (by omega), key 16 2 (by omega),
      key 18 14 (by omega), key 32 16 (by omega), h1, h2, h3, h4, h5, h6, h7]
    simp only [Nat.reduceSub, Nat.reducePow]
    omega

/-- Shorter buffers give `NotEnoughData { got, wanted: 6 }`. -/
theorem C01_short (bs : List U8) (hlen : bs.length < 6) :
    PrimaryHeader.decode bs = .error (.notEnoughData bs.length 6) := by
  match bs, hlen with
  | [], _ | [_], _ | [_, _], _ | [_, _, _], _ | [_, _, _, _], _ | [_, _, _, _, _], _ => rfl
  | _ :: _ :: _ :: _ :: _ :: _ :: _, h => simp at h; omega

/-- Re-serializing a decoded header gives the 6 bytes back, and the decoded fields are in range. -/
theorem C01_reserialize (bs : List U8) (h : PrimaryHeader) (e : PrimaryHeader.decode bs = .ok h) :
    fits headerWidths h.nums ∧ writeFields headerWidths h.nums = bits (bs.take 6) := by
  by_cases hl : bs.length < 6
  · rw [C01_short bs hl] at e; cases e
  · match bs, hl with
    | b0 :: b1 :: b2 :: b3 :: b4 :: b5 :: rest, _ =>
      obtain ⟨h', e', h1, h2, h3, h4, h5, h6, h7⟩ := decode_eq6 b0 b1 b2 b3 b4 b5 rest
      rw [e] at e'
      injection e' with e'
      subst e'
      have i0 := b0.isLt
      have i1 := b1.isLt
      have i2 := b2.isLt
      have i3 := b3.isLt
      have i4 := b4.isLt
      have i5 := b5.isLt
      constructor
      · simp only [fits, headerWidths, PrimaryHeader.nums, h1, h2, h3, h4, h5, h6, h7, Nat.reducePow, and_true]
        omega
      · apply natOfBits_inj
        · simp [writeFields, headerWidths, PrimaryHeader.nums, natBits_length]
        · simp only [List.take_succ_cons, List.take_zero, bits6, writeFields, headerWidths, PrimaryHeader.nums,
            natOfBits_append, natOfBits_natBits, natBits_length, h1, h2, h3, h4, h5, h6, h7, List.length_append,
            List.length_nil, natOfBits_nil, Nat.reduceAdd, Nat.reducePow]
          omega
    | [], h | [_], h | [_, _], h | [_, _, _], h | [_, _, _, _], h | [_, _, _, _, _], h => simp at h

/-- Decoding any serialized in-range header (followed by anything) gives that header back. -/
theorem C01_decode_serialized (h : PrimaryHeader) (hfit : fits headerWidths h.nums) (bs rest : List U8)
    (hbs : bits bs = writeFields headerWidths h.nums) : PrimaryHeader.decode (bs ++ rest) = .ok h := by
  have hl : bs.length = 6 := by
    have := congrArg List.length hbs
    simp [writeFields, headerWidths, PrimaryHeader.nums, natBits_length] at this
    omega
  match bs, hl with
  | [b0, b1, b2, b3, b4, b5], _ =>
    obtain ⟨h', e', _⟩ := decode_eq6 b0 b1 b2 b3 b4 b5 rest
    simp only [List.cons_append, List.nil_append, e']
    have ⟨hf', hw⟩ := C01_reserialize _ _ e'
    simp only [List.take_succ_cons, List.take_zero, hbs] at hw
    rw [PrimaryHeader.nums_inj (writeFields_inj _ _ _ hf' hfit hw)]

/-- Only the first 6 bytes matter. -/
theorem C01_prefix (bs cs : List U8) (hlen : 6 ≤ bs.length) (h : bs.take 6 = cs.take 6) :
    PrimaryHeader.decode bs = PrimaryHeader.decode cs := by
  have hc : 6 ≤ cs.length := by
    have := congrArg List.length h
    simp at this; omega
  match bs, cs, hlen, hc, h with
  | _ :: _ :: _ :: _ :: _ :: _ :: _, _ :: _ :: _ :: _ :: _ :: _ :: _, _, _, h =>
    simp only [List.take_succ_cons, List.cons.injEq] at h
    obtain ⟨h0, h1, h2, h3, h4, h5, _⟩ := h
    subst h0 h1 h2 h3 h4 h5
    rfl

/-- A real header: version 0, secondary header, APID 1369, first segment, sequence 4711, 100 bytes of data. -/
example : fits headerWidths (PrimaryHeader.nums ⟨0, 0, true, 1369, 1, 4711, 99⟩) ∧
    bits [0x0d#8, 0x59#8, 0x52#8, 0x67#8, 0x00#8, 0x63#8] = writeFields headerWidths (PrimaryHeader.nums ⟨0, 0, true, 1369, 1, 4711, 99⟩) ∧
    PrimaryHeader.decode [0x0d#8, 0x59#8, 0x52#8, 0x67#8, 0x00#8, 0x63#8] = .ok ⟨0, 0, true, 1369, 1, 4711, 99⟩ := by
  decide +kernel

/-! ## C02  `Packet::decode` takes exactly the packet named by the header -/

/-- `Packet::decode` as a function of the buffer alone. -/
theorem C02_decode (bs : List U8) :
    (bs.length < 6 → Packet.decode bs = .error (.notEnoughData bs.length 6)) ∧
    (6 ≤ bs.length → bs.length < packetLen bs → Packet.decode bs = .error (.notEnoughData bs.length (packetLen bs))) ∧
    (6 ≤ bs.length → packetLen bs ≤ bs.length →
      ∃ h, PrimaryHeader.decode bs = .ok h ∧ Packet.decode bs = .ok ⟨h, bs.take (packetLen bs), 0⟩) := by
  refine ⟨fun hl => ?_, fun hl hp => ?_, fun hl hp => ?_⟩
  · simp [Packet.decode, PrimaryHeader.LEN, hl]
  · obtain ⟨h, e, _, _, _, _, _, _, hlen⟩ := C01_fields bs hl
    have e' : PrimaryHeader.decode (bs.take 6) = .ok h := by
      rw [← e]; exact C01_prefix _ _ (by simp; omega) (by simp [List.take_take])
    simp only [Packet.decode, PrimaryHeader.LEN, e', hlen]
    unfold packetLen at hp ⊢
    rw [if_neg (by omega), if_pos (by omega)]
    rfl
  · obtain ⟨h, e, _, _, _, _, _, _, hlen⟩ := C01_fields bs hl
    have e' : PrimaryHeader.decode (bs.take 6) = .ok h := by
      rw [← e]; exact C01_prefix _ _ (by simp; omega) (by simp [List.take_take])
    refine ⟨h, e, ?_⟩
    simp only [Packet.decode, PrimaryHeader.LEN, e', hlen]
    unfold packetLen at hp ⊢
    rw [if_neg (by omega), if_neg (by omega)]
    rfl

/-- Success is exactly "the buffer holds the whole packet". -/
theorem C02_success_iff (bs : List U8) :
    (∃ p, Packet.decode bs = .ok p) ↔ packetLen bs ≤ bs.length := by
  have ⟨h1, h2, h3⟩ := C02_decode bs
  constructor
  · rintro ⟨p, e⟩
    by_cases hl : bs.length < 6
    · rw [h1 hl] at e; cases e
    · by_cases hp : bs.length < packetLen bs
      · rw [h2 (by omega) hp] at e; cases e
      · omega
  · intro hp
    obtain ⟨h, _, e⟩ := h3 (by unfold packetLen at hp; omega) hp
    exact ⟨_, e⟩

/-- Trailing bytes never change the result. -/
theorem C02_trailing (bs rest : List U8) (p : Packet) (e : Packet.decode bs = .ok p) :
    Packet.decode (bs ++ rest) = .ok p := by
  have hp := (C02_success_iff bs).1 ⟨p, e⟩
  have hl : 6 ≤ bs.length := by unfold packetLen at hp; omega
  have hpl : packetLen (bs ++ rest) = packetLen bs := by
    unfold packetLen
    rw [← field_take (bs ++ rest) 6 32 16 (by omega), ← field_take bs 6 32 16 (by omega),
      List.take_append_of_le_length hl]
  obtain ⟨h, e1, e2⟩ := (C02_decode bs).2.2 hl hp
  obtain ⟨h', e1', e2'⟩ := (C02_decode (bs ++ rest)).2.2 (by simp; omega) (by rw [hpl]; simp; omega)
  have : PrimaryHeader.decode (bs ++ rest) = PrimaryHeader.decode bs :=
    C01_prefix _ _ (by simp; omega) (List.take_append_of_le_length hl)
  rw [this, e1] at e1'
  injection e1' with e1'
  subst e1'
  rw [e2', ← e, e2, hpl, List.take_append_of_le_length hp]

example : ∃ p, Packet.decode [0x0d#8, 0x59#8, 0x52#8, 0x67#8, 0x00#8, 0x01#8, 0xaa#8, 0xbb#8, 0xcc#8] = .ok p ∧
    p.data = [0x0d#8, 0x59#8, 0x52#8, 0x67#8, 0x00#8, 0x01#8, 0xaa#8, 0xbb#8] := ⟨_, rfl, rfl⟩

end Ccsds
