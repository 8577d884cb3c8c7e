import Verif.Proofs.Encoder
import Verif.Props.EndToEnd
/-!
# C114  What a standard transmitter sends is received

The transmitter is a function of `Spec.Transmitter`; the receiver is the pipeline with Reed–Solomon and `packet_decoder`.
-/
namespace Ccsds
open Spec Pipeline

/-! ## Randomizer -/

theorem natOfBits_byte (b0 b1 b2 b3 b4 b5 b6 b7 : Bool) : byteBits (BitVec.ofNat 8 (natOfBits [b0, b1, b2, b3, b4, b5, b6, b7])) = [b0, b1, b2, b3, b4, b5, b6, b7] := by
  revert b0 b1 b2 b3 b4 b5 b6 b7
  decide +kernel

theorem pnByte_bits (i j : Nat) (hj : j < 8) : (byteBits (pnByte i)).getD j false = pnBit (8 * i + j) := by
  have : (List.range 8).map (fun j => pnBit (8 * i + j)) =
      [pnBit (8 * i + 0), pnBit (8 * i + 1), pnBit (8 * i + 2), pnBit (8 * i + 3), pnBit (8 * i + 4), pnBit (8 * i + 5), pnBit (8 * i + 6), pnBit (8 * i + 7)] := rfl
  unfold pnByte
  rw [this, natOfBits_byte]
  match j, hj with
  | 0, _ => rfl
  | 1, _ => rfl
  | 2, _ => rfl
  | 3, _ => rfl
  | 4, _ => rfl
  | 5, _ => rfl
  | 6, _ => rfl
  | 7, _ => rfl

theorem randomize_length (d : List U8) : (randomize d).length = d.length := by simp [randomize]

theorem randomize_getD (d : List U8) (i : Nat) (hi : i < d.length) : (randomize d).getD i 0 = d.getD i 0 ^^^ pnByte i := by
  simp [randomize, List.getD_eq_getElem?_getD, List.getElem?_eq_getElem hi]

/-- The randomizer of the transmitter is the one of the receiver. -/
theorem randomize_eq (d : List U8) : randomize d = Pn.derandomize d := by
  apply bits_inj
  apply List.ext_getElem?
  intro n
  by_cases h : n < 8 * d.length
  · have e : ∀ l : List U8, l.length = d.length → (bits l)[n]? = some ((bits l).getD n false) := by
      intro l hl
      rw [List.getD_eq_getElem?_getD, List.getElem?_eq_getElem (by rw [bits_length, hl]; exact h)]
      rfl
    rw [e _ (randomize_length d), e _ (C31_length d), C32_bits d n h, bits_getD _ _ (by rw [randomize_length]; exact h), randomize_getD _ _ (by omega),
      byteBits_xor _ _ _ (by omega), ← bits_getD _ _ h, pnByte_bits _ _ (by omega), Nat.div_add_mod]
  · rw [List.getElem?_eq_none (by rw [bits_length, randomize_length]; omega), List.getElem?_eq_none (by rw [bits_length, C31_length]; omega)]

theorem randomize_twice (d : List U8) : randomize (randomize d) = d := by rw [randomize_eq, randomize_eq, C31_involution]

theorem randomize_take (d : List U8) (n : Nat) : (randomize d).take n = randomize (d.take n) := by
  apply List.ext_getElem?
  intro i
  rw [List.getElem?_take]
  unfold randomize
  rw [List.getElem?_mapIdx, List.getElem?_mapIdx, List.getElem?_take]
  split <;> rfl

/-! ## Frames -/

theorem be16_bytes (x : BitVec 16) : be16 (x.extractLsb' 8 8) (x.extractLsb' 0 8) = x := by
  unfold be16
  apply BitVec.eq_of_getLsbD_eq
  intro i hi
  rw [BitVec.getLsbD_append]
  split
  · simp; omega
  · simp; rw [show 8 + (i - 8) = i by omega]; simp; omega

theorem hdr_version (s : BitVec 8) (v : BitVec 6) : (((1#2 ++ s ++ v : BitVec 16).extractLsb' 8 8) >>> 6) &&& 0x3#8 = 1#8 := by
  apply BitVec.eq_of_getLsbD_eq
  intro i hi
  have : i = 0 ∨ i = 1 ∨ i = 2 ∨ i = 3 ∨ i = 4 ∨ i = 5 ∨ i = 6 ∨ i = 7 := by omega
  rcases this with h | h | h | h | h | h | h | h <;> subst h <;> simp only [BitVec.getLsbD_and, BitVec.getLsbD_ushiftRight, BitVec.getLsbD_append, BitVec.getLsbD_setWidth, BitVec.getLsbD_extractLsb'] <;> simp

theorem hdr_scid (s : BitVec 8) (v : BitVec 6) : ((1#2 ++ s ++ v : BitVec 16) >>> 6) &&& 0xff#16 = s.setWidth 16 := by
  apply BitVec.eq_of_getLsbD_eq
  intro i hi
  have : i = 0 ∨ i = 1 ∨ i = 2 ∨ i = 3 ∨ i = 4 ∨ i = 5 ∨ i = 6 ∨ i = 7 ∨ i = 8 ∨ i = 9 ∨ i = 10 ∨ i = 11 ∨ i = 12 ∨ i = 13 ∨ i = 14 ∨ i = 15 := by omega
  rcases this with h | h | h | h | h | h | h | h | h | h | h | h | h | h | h | h <;> subst h <;> simp only [BitVec.getLsbD_and, BitVec.getLsbD_ushiftRight, BitVec.getLsbD_append, BitVec.getLsbD_setWidth, BitVec.getLsbD_extractLsb'] <;> simp

theorem hdr_vcid (s : BitVec 8) (v : BitVec 6) : (1#2 ++ s ++ v : BitVec 16) &&& 0x3f#16 = v.setWidth 16 := by
  apply BitVec.eq_of_getLsbD_eq
  intro i hi
  have : i = 0 ∨ i = 1 ∨ i = 2 ∨ i = 3 ∨ i = 4 ∨ i = 5 ∨ i = 6 ∨ i = 7 ∨ i = 8 ∨ i = 9 ∨ i = 10 ∨ i = 11 ∨ i = 12 ∨ i = 13 ∨ i = 14 ∨ i = 15 := by omega
  rcases this with h | h | h | h | h | h | h | h | h | h | h | h | h | h | h | h <;> subst h <;> simp only [BitVec.getLsbD_and, BitVec.getLsbD_ushiftRight, BitVec.getLsbD_append, BitVec.getLsbD_setWidth, BitVec.getLsbD_extractLsb'] <;> simp

theorem hdr_counter (x : BitVec 24) : Timecode.be32 [0, x.extractLsb' 16 8, x.extractLsb' 8 8, x.extractLsb' 0 8] = BitVec.ofNat 32 x.toNat := by
  unfold Timecode.be32
  congr 1
  simp [Timecode.beNat]
  have := x.isLt
  simp only [Nat.shiftRight_eq_div_pow]
  omega

namespace Spec.Transmitter

/-- The header of frame `n` of channel `v` as the receiver shows it. -/
def header (t : Transmitter) (v : BitVec 6) (n : Nat) : VCDUHeader :=
  ⟨1, t.scid.setWidth 16, v.setWidth 16, BitVec.ofNat 32 ((t.first v + n) % 2 ^ 24)⟩

theorem decode_header (t : Transmitter) (v : BitVec 6) (n : Nat) (rest : List U8) : VCDUHeader.decode (t.primaryHeader v n ++ rest) = some (t.header v n) := by
  unfold VCDUHeader.decode primaryHeader bytes16 bytes24 header
  simp only [List.cons_append, List.nil_append]
  rw [if_neg (by rw [hdr_version]; decide), if_pos (hdr_version _ _)]
  unfold VCDUHeader.decodeV2
  rw [be16_bytes]
  simp only
  rw [ hdr_scid, hdr_vcid, hdr_counter, BitVec.toNat_ofNat]

theorem pointer_bits : ∀ p : BitVec 11, natOfBits (((bits (bytes16 (0#5 ++ p))).drop 5).take 11) = p.toNat := by decide +kernel

theorem zone_length (t : Transmitter) (packets : List (List U8)) (n : Nat) (h : (n + 1) * t.zoneSize ≤ packets.flatten.length) :
    ((packets.flatten.drop (n * t.zoneSize)).take t.zoneSize).length = t.zoneSize := by
  rw [Nat.add_mul, Nat.one_mul] at h
  rw [List.length_take, List.length_drop]
  omega

theorem frame_length (t : Transmitter) (ht : t.Valid) (packets : List (List U8)) (v : BitVec 6) (n : Nat) (h : v ≠ 63 → (n + 1) * t.zoneSize ≤ packets.flatten.length) :
    (t.frame packets v n).length = t.frameSize := by
  have hd : (t.dataField packets v n).length = 2 + t.zoneSize := by
    unfold dataField
    split
    · exact ht.idle n
    · rename_i hv
      rw [List.length_append, zone_length t packets n (h hv)]; rfl
  unfold frame frameSize
  simp only [List.length_append, hd, ht.insert, ht.trailer]
  rw [show (t.primaryHeader v n).length = 6 from rfl]
  omega

theorem block_length (t : Transmitter) (ht : t.Valid) (packets : List (List U8)) (v : BitVec 6) (n : Nat) (h : v ≠ 63 → (n + 1) * t.zoneSize ≤ packets.flatten.length) :
    (t.block packets v n).length = t.blockSize := by
  unfold block blockSize checkSymbols
  simp [frame_length t ht packets v n h]

theorem decode_block (t : Transmitter) (packets : List (List U8)) (v : BitVec 6) (n : Nat) : VCDUHeader.decode (t.block packets v n) = some (t.header v n) := by
  unfold block frame
  simp only [List.append_assoc]
  exact decode_header t v n _

theorem payload_frame (t : Transmitter) (ht : t.Valid) (packets : List (List U8)) (v : BitVec 6) (n : Nat) (hv : v ≠ 63) (h : (n + 1) * t.zoneSize ≤ packets.flatten.length) :
    payloadOf t.insertSize t.trailerSize (t.frame packets v n) = (packets.flatten.drop (n * t.zoneSize)).take t.zoneSize := by
  unfold payloadOf
  rw [frame_length t ht packets v n (fun _ => h)]
  unfold frame dataField frameSize
  rw [if_neg hv]
  have hz := zone_length t packets n h
  generalize (packets.flatten.drop (n * t.zoneSize)).take t.zoneSize = z at hz ⊢
  have hl : (t.primaryHeader v n ++ t.insertZone v n ++ t.mpduHeader packets n).length = 6 + t.insertSize + 2 := by
    simp only [List.length_append, ht.insert]; rfl
  rw [← List.append_assoc _ _ z, List.append_assoc _ z, List.drop_left' hl, List.take_left']
  omega

theorem pointerOf_frame (t : Transmitter) (ht : t.Valid) (packets : List (List U8)) (v : BitVec 6) (n : Nat) (hv : v ≠ 63) (hp : t.pointer packets (n * t.zoneSize) < 2048) :
    pointerOf t.insertSize (t.frame packets v n) = t.pointer packets (n * t.zoneSize) := by
  unfold pointerOf frame dataField
  rw [if_neg hv]
  have hl : (t.primaryHeader v n ++ t.insertZone v n).length = 6 + t.insertSize := by
    simp only [List.length_append, ht.insert]; rfl
  rw [List.append_assoc, List.drop_left' hl, List.append_assoc]
  unfold mpduHeader field
  rw [bits_append, List.drop_append_of_le_length (by rw [bits_length]; simp [bytes16]), List.take_append_of_le_length (by rw [List.length_drop, bits_length]; simp [bytes16]),
    pointer_bits, BitVec.toNat_ofNat, Nat.mod_eq_of_lt hp]

theorem starts_ge (a : Nat) (ps : List (List U8)) : ∀ x ∈ starts a ps, a ≤ x := by
  induction ps generalizing a with
  | nil => intro x hx; simp [starts] at hx
  | cons p ps ih =>
    intro x hx
    simp only [starts, List.mem_cons] at hx
    rcases hx with rfl | hx
    · omega
    · have := ih _ x hx; omega

theorem find_starts (a b : Nat) (ps : List (List U8)) :
    (∃ x, (starts b ps).find? (fun s => a ≤ s) = some x ∧ x ∈ starts b ps ∧ a ≤ x ∧ ∀ y ∈ starts b ps, a ≤ y → x ≤ y) ∨
    ((starts b ps).find? (fun s => a ≤ s) = none ∧ ∀ y ∈ starts b ps, ¬ a ≤ y) := by
  induction ps generalizing b with
  | nil => right; simp [starts]
  | cons p ps ih =>
    simp only [starts, List.find?_cons]
    by_cases h : a ≤ b
    · left
      refine ⟨b, by simp [h], by simp, h, fun y hy _ => ?_⟩
      rcases List.mem_cons.1 hy with rfl | hy
      · omega
      · have := starts_ge _ _ y hy; omega
    · have hd : decide (a ≤ b) = false := by simpa using h
      rw [hd]
      rcases ih (b + p.length) with ⟨x, h1, h2, h3, h4⟩ | ⟨h1, h2⟩
      · left
        refine ⟨x, h1, List.mem_cons_of_mem _ h2, h3, fun y hy hya => ?_⟩
        rcases List.mem_cons.1 hy with rfl | hy
        · omega
        · exact h4 y hy hya
      · right
        refine ⟨h1, fun y hy => ?_⟩
        rcases List.mem_cons.1 hy with rfl | hy
        · exact h
        · exact h2 y hy

theorem pointer_first (t : Transmitter) (packets : List (List U8)) (a : Nat) :
    FirstHeaderPointer (starts 0 packets) a t.zoneSize (t.pointer packets a) := by
  unfold pointer
  rcases find_starts a 0 packets with ⟨x, h1, h2, h3, h4⟩ | ⟨h1, h2⟩
  · rw [h1]
    simp only
    split
    · exact .inl ⟨x, h2, h3, by assumption, rfl, h4⟩
    · refine .inr ⟨rfl, fun y hy hya => ?_⟩
      have := h4 y hy hya; omega
  · rw [h1]
    exact .inr ⟨rfl, fun y hy hya => absurd hya (h2 y hy)⟩

theorem pointer_lt (t : Transmitter) (ht : t.Valid) (packets : List (List U8)) (a : Nat) : t.pointer packets a < 2048 := by
  have := ht.zone.2
  rcases pointer_first t packets a with ⟨x, _, h1, h2, h3, _⟩ | ⟨h, _⟩ <;> omega

/-! ## Multiplexing -/

theorem number_append (seen a b : List (BitVec 6)) : number seen (a ++ b) = number seen a ++ number (a.reverse ++ seen) b := by
  induction a generalizing seen with
  | nil => rfl
  | cons v a ih => simp [number, ih]

theorem number_length (seen slots : List (BitVec 6)) : (number seen slots).length = slots.length := by
  induction slots generalizing seen with
  | nil => rfl
  | cons v a ih => simp [number, ih]

theorem number_fst (seen slots : List (BitVec 6)) : (number seen slots).map (·.1) = slots := by
  induction slots generalizing seen with
  | nil => rfl
  | cons v a ih => simp [number, ih]

theorem number_take (slots : List (BitVec 6)) (i : Nat) : (number [] slots).take i = number [] (slots.take i) := by
  conv => lhs; rw [← List.take_append_drop i slots, number_append]
  by_cases h : i ≤ slots.length
  · rw [List.take_left' (by rw [number_length, List.length_take]; omega)]
  · rw [List.take_of_length_le (by rw [List.length_append, number_length, number_length, List.length_take, List.length_drop]; omega),
      List.drop_eq_nil_of_le (by omega)]
    simp [number]

theorem number_filter (seen slots : List (BitVec 6)) (v : BitVec 6) :
    (number seen slots).filter (fun x => x.1 == v) = (List.range' (seen.count v) (slots.count v)).map fun n => (v, n) := by
  induction slots generalizing seen with
  | nil => rfl
  | cons w slots ih =>
    rw [number, List.filter_cons, ih]
    by_cases h : w = v
    · subst h
      simp [List.range'_succ]
    · have hb : (w == v) = false := by simpa using h
      simp [hb, h]

theorem number_lt (slots : List (BitVec 6)) (x : BitVec 6 × Nat) (hx : x ∈ number [] slots) : x.1 ∈ slots ∧ x.2 < slots.count x.1 := by
  have : x ∈ (number [] slots).filter (fun y => y.1 == x.1) := List.mem_filter.2 ⟨hx, by simp⟩
  rw [number_filter] at this
  obtain ⟨n, hn, e⟩ := List.mem_map.1 this
  have hn' := List.mem_range'_1.1 hn
  refine ⟨?_, ?_⟩
  · rw [← number_fst [] slots]
    exact List.mem_map.2 ⟨x, hx, rfl⟩
  · rw [← e]; simpa using hn'.2

/-! ## What arrives -/

/-- The receiver's side of the randomizer. -/
def unrand (t : Transmitter) (d : List U8) : List U8 := if t.randomized then randomize d else d

theorem unrand_length (t : Transmitter) (d : List U8) : (t.unrand d).length = d.length := by
  unfold unrand; split
  · exact randomize_length d
  · rfl

theorem unrand_unrand (t : Transmitter) (d : List U8) : t.unrand (t.unrand d) = d := by
  unfold unrand; split
  · exact randomize_twice d
  · rfl

theorem unrand_take (t : Transmitter) (d : List U8) (n : Nat) : (t.unrand d).take n = t.unrand (d.take n) := by
  unfold unrand; split
  · exact randomize_take d n
  · rfl

theorem unrand_getD (t : Transmitter) (d e : List U8) (h : d.length = e.length) (i : Nat) (hi : d[i]? = e[i]?) : (t.unrand d).getD i 0 = (t.unrand e).getD i 0 := by
  unfold unrand; split
  · by_cases hl : i < d.length
    · rw [randomize_getD _ _ hl, randomize_getD _ _ (h ▸ hl)]
      simp only [List.getD_eq_getElem?_getD, hi]
    · simp only [List.getD_eq_getElem?_getD]
      rw [List.getElem?_eq_none (by rw [randomize_length]; omega), List.getElem?_eq_none (by rw [randomize_length]; omega)]
  · simp only [List.getD_eq_getElem?_getD, hi]

theorem cadu_eq (t : Transmitter) (packets : List (List U8)) (v : BitVec 6) (n : Nat) : t.cadu packets v n = marker ++ t.unrand (t.block packets v n) := rfl

theorem fill_frame (t : Transmitter) (ht : t.Valid) : t.fill + t.frameSize = 223 * t.depth := by
  have := ht.fits
  unfold fill frameSize
  omega

/-- Noise within bounds leaves the blocks correctable. -/
theorem noisy_correctable (t : Transmitter) (ht : t.Valid) (o : RS.Opts) (hI : o.interleave.toNat = t.depth) (hvf : o.virtualFill = t.fill)
    (packets : List (List U8)) (v : BitVec 6) (n : Nat) (h : v ≠ 63 → (n + 1) * t.zoneSize ≤ packets.flatten.length) (r : List U8) (hr : t.Noisy (t.cadu packets v n) r) :
    Correctable ccsdsCode o (t.block packets v n) (t.unrand (r.drop 4)) ∧ r = marker ++ r.drop 4 ∧ (r.drop 4).length = t.blockSize := by
  have hbl := block_length t ht packets v n h
  have hcl : (t.cadu packets v n).length = 4 + t.blockSize := by
    rw [cadu_eq, List.length_append, unrand_length, hbl]; rfl
  have hdl : (r.drop 4).length = t.blockSize := by rw [List.length_drop, hr.length, hcl]; omega
  have hff := fill_frame t ht
  have hmark : r.take 4 = marker := by
    have : (r.take 10).take 4 = ((t.cadu packets v n).take 10).take 4 := by rw [hr.start]
    rw [List.take_take, List.take_take] at this
    rw [show min 4 10 = 4 from rfl] at this
    rw [this, cadu_eq]; rfl
  refine ⟨⟨?_, ?_, ?_, ?_, ?_⟩, ?_, hdl⟩
  · apply C33_prefix _ _ (by rw [unrand_length, hdl]; unfold blockSize frameSize; omega)
    have h6 : (r.drop 4).take 6 = (t.unrand (t.block packets v n)).take 6 := by
      have : (r.take 10).drop 4 = ((t.cadu packets v n).take 10).drop 4 := by rw [hr.start]
      rw [List.drop_take, List.drop_take] at this
      rw [this, cadu_eq]
      rfl
    rw [unrand_take, h6, ← unrand_take, unrand_unrand]
  · rw [hbl, hvf, hI]; unfold blockSize; omega
  · rw [unrand_length, hdl, hbl]
  · intro _ _ _ i hi
    rw [hI] at hi ⊢
    rw [hvf]
    unfold block
    rw [encoded_codeword _ _ _ (by rw [frame_length t ht packets v n h]; exact hff) i hi]
    exact rsParity_code _ (by simp [messageOf])
  · intro _ _ _ i hi
    rw [hI] at hi ⊢
    rw [hvf]
    unfold codeword
    rw [dist_map, List.countP_eq_length_filter]
    refine Nat.le_trans ?_ (hr.errors i hi)
    have hI0 : 0 < t.depth := ht.depth.1
    have hnd : (((List.range 255).filter fun p => (List.replicate t.fill 0#8 ++ t.unrand (r.drop 4)).getD (p * t.depth + i) 0 !=
        (List.replicate t.fill 0#8 ++ t.block packets v n).getD (p * t.depth + i) 0).map fun p => p * t.depth + i - t.fill + 4).Nodup ∧
        ∀ p ∈ (List.range 255).filter fun p => (List.replicate t.fill 0#8 ++ t.unrand (r.drop 4)).getD (p * t.depth + i) 0 !=
        (List.replicate t.fill 0#8 ++ t.block packets v n).getD (p * t.depth + i) 0, p * t.depth + i - t.fill + 4 ∈
          (List.range (t.cadu packets v n).length).filter fun j => 4 ≤ j ∧ (t.fill + (j - 4)) % t.depth = i ∧ r[j]? ≠ (t.cadu packets v n)[j]? := by
      have hge : ∀ p ∈ (List.range 255).filter fun p => (List.replicate t.fill 0#8 ++ t.unrand (r.drop 4)).getD (p * t.depth + i) 0 !=
          (List.replicate t.fill 0#8 ++ t.block packets v n).getD (p * t.depth + i) 0, t.fill ≤ p * t.depth + i ∧ p * t.depth + i - t.fill < t.blockSize ∧
          (t.unrand (r.drop 4)).getD (p * t.depth + i - t.fill) 0 ≠ (t.block packets v n).getD (p * t.depth + i - t.fill) 0 := by
        intro p hp
        have hp2 := (List.mem_filter.1 hp).2
        have hne : (List.replicate t.fill 0#8 ++ t.unrand (r.drop 4)).getD (p * t.depth + i) 0 ≠
          (List.replicate t.fill 0#8 ++ t.block packets v n).getD (p * t.depth + i) 0 := by simpa using hp2
        have h1 : t.fill ≤ p * t.depth + i := by
          by_contra hlt
          apply hne
          simp only [List.getD_eq_getElem?_getD]
          rw [List.getElem?_append_left (by simpa using hlt), List.getElem?_append_left (by simpa using hlt)]
        have h2 : (t.unrand (r.drop 4)).getD (p * t.depth + i - t.fill) 0 ≠ (t.block packets v n).getD (p * t.depth + i - t.fill) 0 := by
          intro e
          apply hne
          simp only [List.getD_eq_getElem?_getD] at e ⊢
          rw [List.getElem?_append_right (by simpa using h1), List.getElem?_append_right (by simpa using h1), List.length_replicate]
          exact e
        refine ⟨h1, ?_, h2⟩
        by_contra hlt
        apply h2
        simp only [List.getD_eq_getElem?_getD]
        rw [List.getElem?_eq_none (by rw [unrand_length, hdl]; omega), List.getElem?_eq_none (by rw [hbl]; omega)]
      constructor
      · refine List.Nodup.map_on ?_ (List.nodup_range.filter _)
        intro p hp q hq e
        have h1 := (hge p hp).1
        have h2 := (hge q hq).1
        have : p * t.depth = q * t.depth := by omega
        exact Nat.eq_of_mul_eq_mul_right hI0 this
      · intro p hp
        obtain ⟨h1, h2, h3⟩ := hge p hp
        rw [List.mem_filter]
        refine ⟨List.mem_range.2 (by rw [hcl]; omega), ?_⟩
        simp only [decide_eq_true_eq]
        refine ⟨by omega, ?_, ?_⟩
        · rw [Nat.add_sub_cancel, show t.fill + (p * t.depth + i - t.fill) = i + p * t.depth by omega, Nat.add_mul_mod_self_right, Nat.mod_eq_of_lt hi]
        · intro e
          apply h3
          have : (r.drop 4)[p * t.depth + i - t.fill]? = (t.unrand (t.block packets v n))[p * t.depth + i - t.fill]? := by
            rw [List.getElem?_drop, Nat.add_comm 4, e, cadu_eq, List.getElem?_append_right (by rw [show marker.length = 4 from rfl]; omega)]
            rfl
          rw [unrand_getD t _ _ (by rw [unrand_length, hdl, hbl]) _ this, unrand_unrand]
    have := (hnd.1.subperm (l₂ := (List.range (t.cadu packets v n).length).filter fun j => 4 ≤ j ∧ (t.fill + (j - 4)) % t.depth = i ∧ r[j]? ≠ (t.cadu packets v n)[j]?) (by
      intro j hj
      obtain ⟨p, hp, rfl⟩ := List.mem_map.1 hj
      exact hnd.2 p hp)).length_le
    rw [List.length_map] at this
    exact this
  · conv => lhs; rw [← List.take_append_drop 4 r, hmark]

theorem wide_inj {v w : BitVec 6} (h : v.setWidth 16 = w.setWidth 16) : v = w := by
  have := congrArg BitVec.toNat h
  simp only [BitVec.toNat_setWidth] at this
  have h1 := v.isLt
  have h2 := w.isLt
  rw [Nat.mod_eq_of_lt (by omega), Nat.mod_eq_of_lt (by omega)] at this
  exact BitVec.eq_of_toNat_eq this

/-- The last header of a channel among the frames sent. -/
theorem last_sent (t : Transmitter) (packets : BitVec 6 → List (List U8)) (slots : List (BitVec 6)) (v : BitVec 6) :
    lastOfChannel (((number [] slots).map fun x => t.block (packets x.1) x.1 x.2).map blk) (v.setWidth 16) =
      if slots.count v = 0 then none else some (t.header v (slots.count v - 1)) := by
  unfold lastOfChannel
  have e : ∀ l : List (BitVec 6 × Nat), ((((l.map fun x => t.block (packets x.1) x.1 x.2).map blk).filterMap fun c => VCDUHeader.decode c.data).filter
      fun h => h.vcid == v.setWidth 16) = (l.filter fun x => x.1 == v).map fun x => t.header x.1 x.2 := by
    intro l
    induction l with
    | nil => rfl
    | cons x l ih =>
      rw [List.map_cons, List.map_cons, List.filterMap_cons_some (f := fun c : Block => VCDUHeader.decode c.data) (a := blk (t.block (packets x.1) x.1 x.2)) (b := t.header x.1 x.2) (decode_block t _ _ _),
        List.filter_cons, List.filter_cons, ih]
      have hb : ((t.header x.1 x.2).vcid == v.setWidth 16) = (x.1 == v) := by
        by_cases h : x.1 = v
        · rw [h]; simp [header]
        · have : (x.1 == v) = false := by simpa using h
          rw [this]
          simp only [header, beq_eq_false_iff_ne, ne_eq]
          exact fun e => h (wide_inj e)
      rw [hb]
      cases h : (x.1 == v)
      · rfl
      · rfl
  rw [e, number_filter, List.map_map, List.count_nil]
  cases h : slots.count v with
  | zero => simp
  | succ c =>
    rw [if_neg (by omega), List.range'_concat, List.map_append, List.map_cons, List.map_nil, List.getLast?_append, List.getLast?_singleton]
    simp [Function.comp]

theorem header_counter (t : Transmitter) (v : BitVec 6) (n : Nat) (h : t.first v + n < 2 ^ 24) : (t.header v n).counter.toNat = t.first v + n := by
  unfold header
  simp only [BitVec.toNat_ofNat]
  rw [Nat.mod_eq_of_lt h, Nat.mod_eq_of_lt (by omega)]

/-- The marker never overlaps a shifted copy of itself. -/
theorem marker_overlap : ∀ k, k < 32 → 0 < k → (bits marker).drop k ≠ (bits marker).take (32 - k) := by decide +kernel

theorem first_marker (pre rest : List Bool) (hpre : ∀ i, ¬ Occurs (bits marker) pre i) : FirstAt (bits marker) (pre ++ (bits marker ++ rest)) 0 pre.length := by
  have hm : (bits marker).length = 32 := by decide
  refine ⟨Nat.zero_le _, ?_, ?_⟩
  · unfold Occurs
    rw [List.drop_left]
    exact List.prefix_append _ _
  · intro j _ hj hoc
    unfold Occurs at hoc
    rw [List.drop_append_of_le_length (by omega)] at hoc
    by_cases h : j + 32 ≤ pre.length
    · apply hpre j
      unfold Occurs
      exact List.prefix_of_prefix_length_le hoc (List.prefix_append _ _) (by rw [hm, List.length_drop]; omega)
    · obtain ⟨u, hu⟩ := hoc
      have hk : (pre.drop j).length = pre.length - j := List.length_drop ..
      have h1 : ((bits marker ++ u).drop (pre.length - j)).take (32 - (pre.length - j)) = ((pre.drop j ++ (bits marker ++ rest)).drop (pre.length - j)).take (32 - (pre.length - j)) := by
        rw [hu]
      rw [List.drop_append_of_le_length (by omega), List.take_left' (by rw [List.length_drop, hm]), List.drop_left' hk,
        List.take_append_of_le_length (by omega)] at h1
      exact marker_overlap _ (by omega) (by omega) h1

theorem zip_channel (v : BitVec 6) : ∀ (slots : List (BitVec 6)) (outs : List Frame) (parts : List (List Packet)),
    outs.map (·.header.vcid) = slots.map (BitVec.setWidth 16) →
    (slots.zip parts).filter (fun x => x.1 == v) = ((outs.zip parts).filter (fun x => x.1.header.vcid == v.setWidth 16)).map fun x => (v, x.2)
  | [], [], _, _ => by simp
  | [], f :: _, _, h => by simp at h
  | w :: _, [], _, h => by simp at h
  | w :: slots, f :: outs, [], _ => by simp
  | w :: slots, f :: outs, p :: parts, h => by
    rw [List.map_cons, List.map_cons, List.cons.injEq] at h
    have ih := zip_channel v slots outs parts h.2
    rw [List.zip_cons_cons, List.zip_cons_cons, List.filter_cons, List.filter_cons, ih]
    simp only [h.1]
    by_cases hw : w = v
    · subst hw; simp
    · have h1 : (w == v) = false := by simpa using hw
      have h2 : (w.setWidth 16 == v.setWidth 16) = false := by
        rw [beq_eq_false_iff_ne]; exact fun e => hw (wide_inj e)
      simp [h1, h2]

end Spec.Transmitter

open Spec.Transmitter in
/-- C114. A transmitter that follows the standards sends the packets of any number of virtual channels, multiplexed in any order, with fill frames of any
content on channel 63 anywhere between; every data unit is damaged within what
the code can repair; noise without a marker may come before and after, of any number of bits. Then, however the bytes are read in pieces and however the decoding threads are
scheduled, the pipeline ends with one frame per data unit, and `packet_decoder` turns the frames into packets, `parts` listing those it gives for each frame: for each channel
exactly the packets whose last byte was sent, in order and byte for byte. -/
theorem C114_received (b : Build) (k : Codec) (hk : Bounded k ccsdsCode)
    (t : Transmitter) (ht : t.Valid) (packets : BitVec 6 → List (List U8)) (hp : ∀ v, ∀ q ∈ packets v, IsPacket q)
    (slots : List (BitVec 6)) (hne : slots ≠ []) (hsent : ∀ v, v ≠ 63 → slots.count v * t.zoneSize ≤ (packets v).flatten.length)
    (hcount : ∀ v, t.first v + slots.count v ≤ 2 ^ 24)
    (rxs : List (List U8)) (hrx : List.Forall₂ t.Noisy (t.cadus packets slots) rxs)
    (pre post : List Bool) (hpre : ∀ i, ¬ Occurs (bits marker) pre i) (hpost : ∀ i, ¬ Occurs (bits marker) post i)
    (S : List U8) (hS : bits S = pre ++ bits rxs.flatten ++ post) (r : Reader) (hr : Smooth r S)
    (o : RS.Opts) (hI : o.interleave.toNat = t.depth) (hvf : o.virtualFill = t.fill) (hcorr : o.correct = true) (p : RsStage.Params) :
    (∃ s, Runs b k ⟨t.randomized, some (o, p), t.blockSize⟩ r s) ∧
    ∀ s, Runs b k ⟨t.randomized, some (o, p), t.blockSize⟩ r s →
      s.aborted = none ∧
      (1 ≤ p.workers → s.cons ≠ .gone → ∃ s', Runs b k ⟨t.randomized, some (o, p), t.blockSize⟩ r s' ∧ s'.cons = .ended) ∧
      (s.cons = .ended → ∃ parts st, Collects FramedPackets.next (FramedPackets.new s.got t.insertSize t.trailerSize) parts.flatten (some st) ∧
        parts.length = slots.length ∧ ByFrame t.insertSize t.trailerSize s.got parts ∧ (∀ q ∈ parts.flatten, Good q) ∧
        ∀ v, v ≠ 63 → ∃ qs more, packets v = qs ++ more ∧ (qs ≠ [] → qs.flatten.length ≤ slots.count v * t.zoneSize) ∧
          (∀ q, more.head? = some q → slots.count v * t.zoneSize < qs.flatten.length + q.length) ∧
          (((slots.zip parts).filter (fun x => x.1 == v)).flatMap (·.2)).map (·.data) = qs) := by
  have hnl : (number [] slots).length = slots.length := number_length _ _
  have hroom : ∀ x ∈ number [] slots, x.1 ≠ 63 → (x.2 + 1) * t.zoneSize ≤ (packets x.1).flatten.length := by
    intro x hx hv
    exact Nat.le_trans (Nat.mul_le_mul_right _ (number_lt slots x hx).2) (hsent x.1 hv)
  unfold cadus at hrx
  rw [List.forall₂_map_left_iff] at hrx
  have hrl : (number [] slots).length = rxs.length := hrx.length_eq
  -- the transmitted blocks beside the received ones
  let channel : List (List U8 × List U8) := ((number [] slots).zip rxs).map fun x => (t.block (packets x.1.1) x.1.1 x.1.2, t.unrand (x.2.drop 4))
  have hc1 : channel.map (·.1) = (number [] slots).map fun x => t.block (packets x.1) x.1 x.2 := by
    show (((number [] slots).zip rxs).map _).map _ = _
    rw [List.map_map]
    conv => rhs; rw [← List.map_fst_zip (l₁ := number [] slots) (l₂ := rxs) (by omega), List.map_map]
    rfl
  have hc2 : channel.map (·.2) = rxs.map fun r => t.unrand (r.drop 4) := by
    show (((number [] slots).zip rxs).map _).map _ = _
    rw [List.map_map]
    conv => rhs; rw [← List.map_snd_zip (l₁ := number [] slots) (l₂ := rxs) (by omega), List.map_map]
    rfl
  have hcl : channel.length = slots.length := by
    have := congrArg List.length hc1
    simpa [hnl] using this
  have hzip : ∀ x ∈ (number [] slots).zip rxs, x.1 ∈ number [] slots ∧ t.Noisy (t.cadu (packets x.1.1) x.1.1 x.1.2) x.2 := by
    intro x hx
    exact ⟨(List.of_mem_zip hx).1, (List.forall₂_iff_zip.1 hrx).2 hx⟩
  have hnoise : ∀ x ∈ (number [] slots).zip rxs, Correctable ccsdsCode o (t.block (packets x.1.1) x.1.1 x.1.2) (t.unrand (x.2.drop 4)) ∧ x.2 = marker ++ x.2.drop 4 ∧
      (x.2.drop 4).length = t.blockSize := by
    intro x hx
    obtain ⟨h1, h2⟩ := hzip x hx
    exact noisy_correctable t ht o hI hvf (packets x.1.1) x.1.1 x.1.2 (hroom _ h1) x.2 h2
  have hrmem : ∀ r ∈ rxs, r = marker ++ r.drop 4 ∧ (r.drop 4).length = t.blockSize := by
    intro r hr
    rw [← List.map_snd_zip (l₁ := number [] slots) (l₂ := rxs) (by omega)] at hr
    obtain ⟨x, hx, rfl⟩ := List.mem_map.1 hr
    exact (hnoise x hx).2
  have hbits : bits rxs.flatten = (rxs.map fun r => t.unrand (r.drop 4)).flatMap fun d => bits Sync.ASM ++ bits (if t.randomized then Pn.derandomize d else d) := by
    clear hrl hS hc2 hrx hc1 hcl hzip hnoise channel
    induction rxs with
    | nil => rfl
    | cons r rxs ih =>
      rw [List.flatten_cons, bits_append, List.map_cons, List.flatMap_cons, ih (fun r hr => hrmem r (List.mem_cons_of_mem _ hr))]
      congr 1
      conv => lhs; rw [(hrmem r (by simp)).1, bits_append]
      have e : (if t.randomized then Pn.derandomize (t.unrand (r.drop 4)) else t.unrand (r.drop 4)) = r.drop 4 := by
        have := unrand_unrand t (r.drop 4)
        conv at this => lhs; unfold unrand
        rw [← randomize_eq]
        exact this
      rw [e]
      rfl
  have hbl : (bits rxs.flatten).length = rxs.length * (32 + 8 * t.blockSize) := by
    rw [bits_length]
    clear hrl hS hc2 hrx hc1 hcl hzip hnoise channel hbits
    induction rxs with
    | nil => simp
    | cons r rxs ih =>
      rw [List.flatten_cons, List.length_append, Nat.mul_add, ih (fun r hr => hrmem r (List.mem_cons_of_mem _ hr)), List.length_cons, Nat.add_mul, Nat.one_mul,
        (hrmem r (by simp)).1, List.length_append, (hrmem r (by simp)).2]
      rw [show marker.length = 4 from rfl]
      omega
  have hcarries : Carries t.randomized S t.blockSize pre post (channel.map (·.2)) := by
    refine ⟨?_, ?_, ?_, ?_, ?_⟩
    · intro e
      have := congrArg List.length e
      rw [List.length_map, hcl] at this
      exact hne (List.eq_nil_of_length_eq_zero (by simpa using this))
    · rw [hc2]
      intro d hd
      obtain ⟨r, hr, rfl⟩ := List.mem_map.1 hd
      rw [unrand_length]; exact (hrmem r hr).2
    · rw [hc2, hS, hbits]
    · show FirstAt (bits marker) (bits S) 0 pre.length
      rw [hS]
      have : ∃ rest, bits rxs.flatten = bits marker ++ rest := by
        cases rxs with
        | nil => exact absurd (List.eq_nil_of_length_eq_zero (by rw [← hnl, hrl]; rfl)) hne
        | cons r rxs =>
          rw [List.flatten_cons, bits_append]
          refine ⟨bits (r.drop 4) ++ bits rxs.flatten, ?_⟩
          conv => lhs; rw [(hrmem r (by simp)).1, bits_append, List.append_assoc]
      obtain ⟨rest, e⟩ := this
      rw [e, List.append_assoc, List.append_assoc]
      exact first_marker pre _ hpre
    · intro i hi hoc
      rw [List.length_map, hcl] at hi
      rw [hS] at hoc
      have hl : (pre ++ bits rxs.flatten).length = pre.length + slots.length * (32 + 8 * t.blockSize) := by
        rw [List.length_append, hbl, ← hrl, hnl]
      unfold Occurs at hoc
      rw [List.drop_append, List.drop_eq_nil_of_le (by omega), List.nil_append] at hoc
      exact hpost _ hoc
  have hget : ∀ (i : Nat) d, (channel.map (·.1))[i]? = some d → ∃ x, (number [] slots)[i]? = some x ∧ d = t.block (packets x.1) x.1 x.2 ∧
      x.2 = (slots.take i).count x.1 := by
    intro i d hd
    rw [hc1, List.getElem?_map] at hd
    cases hx : (number [] slots)[i]? with
    | none => rw [hx] at hd; cases hd
    | some x =>
      rw [hx] at hd
      refine ⟨x, rfl, by simpa using hd.symm, ?_⟩
      have hi : i < slots.length := by rw [← hnl]; exact (List.getElem?_eq_some_iff.1 hx).1
      have e := number_append [] (slots.take i) (slots.drop i)
      rw [List.take_append_drop] at e
      rw [e, List.getElem?_append_right (by rw [number_length, List.length_take]; omega), number_length, List.length_take,
        show i - min i slots.length = 0 by omega, List.drop_eq_getElem_cons hi, number] at hx
      simp only [List.getElem?_cons_zero, Option.some.injEq] at hx
      rw [← hx]
      simp
  have hlast : ∀ i v, lastOfChannel (((channel.map (·.1)).take i).map blk) (BitVec.setWidth 16 v) =
      if (slots.take i).count v = 0 then none else some (t.header v ((slots.take i).count v - 1)) := by
    intro i v
    rw [hc1, ← List.map_take, number_take]
    exact last_sent t packets (slots.take i) v
  have hsmall : ∀ (i : Nat) (x : BitVec 6 × Nat), (number [] slots)[i]? = some x → t.first x.1 + x.2 < 2 ^ 24 := by
    intro i x hx
    have h1 := (number_lt slots x (List.mem_of_getElem? hx)).2
    have h2 := hcount x.1
    omega
  have hcounts : Counts (channel.map (·.1)) := by
    constructor
    · intro d hd
      obtain ⟨i, hi⟩ := List.mem_iff_getElem?.1 hd
      obtain ⟨x, _, rfl, _⟩ := hget i d hi
      exact ⟨_, decode_block t _ _ _⟩
    · intro i d h q hd hh hq
      obtain ⟨x, hx, rfl, hxc⟩ := hget i d hd
      rw [decode_block] at hh
      cases hh
      have hq' : lastOfChannel (((channel.map (·.1)).take i).map blk) (BitVec.setWidth 16 x.1) = some q := hq
      rw [hlast] at hq'
      split at hq'
      · cases hq'
      · cases hq'
        have := hsmall i x hx
        rw [header_counter t _ _ this, header_counter t _ _ (by omega)]
        omega
  have hcor : ∀ x ∈ channel, Correctable ccsdsCode o x.1 x.2 := by
    intro x hx
    obtain ⟨y, hy, rfl⟩ := List.mem_map.1 hx
    exact (hnoise y hy).1
  obtain ⟨outs, hol, hdel, hinit, hruns⟩ := C59_rs_pipeline b k ccsdsCode hk t.randomized o p (by rw [hI]; exact ht.depth.1)
    (by rw [hI, hvf]; have := fill_frame t ht; omega) hcorr r S t.blockSize pre post channel hr hcarries hcounts hcor
  refine ⟨⟨_, hinit⟩, fun s hs => ?_⟩
  obtain ⟨q1, _, q3, q4⟩ := hruns s hs
  refine ⟨q1, fun h1 h2 => ?_, fun hend => ?_⟩
  · obtain ⟨s', a, c, _⟩ := q4 h1 h2
    exact ⟨s', a, c⟩
  rw [q3 hend]
  -- the frames delivered
  have hat : ∀ (i : Nat) f, outs[i]? = some f → ∃ x, (number [] slots)[i]? = some x ∧ f.header.vcid = x.1.setWidth 16 ∧ t.frameSize ≤ f.data.length ∧
      (x.1 ≠ 63 → f.missing = 0#32 ∧ ¬ Bad f ∧ f.data = t.frame (packets x.1) x.1 x.2) := by
    intro i f hf
    have hi : i < channel.length := by have := (List.getElem?_eq_some_iff.1 hf).1; omega
    have hD := hdel i _ f (List.getElem?_eq_getElem hi) hf
    obtain ⟨x, hx, hxe, hxc⟩ := hget i (channel[i]).1 (by rw [List.getElem?_map, List.getElem?_eq_getElem hi]; rfl)
    have hx1 := number_lt slots x (List.mem_of_getElem? hx)
    obtain ⟨d1, d2, d3⟩ := hD
    rw [hxe, decode_block] at d1
    have hh : t.header x.1 x.2 = f.header := Option.some.inj d1
    have hv : f.header.vcid = x.1.setWidth 16 := by rw [← hh]; rfl
    have hxr := hroom x (List.mem_of_getElem? hx)
    by_cases hx63 : x.1 = 63
    · refine ⟨x, hx, hv, ?_, fun h => absurd hx63 h⟩
      have hf63 : f.header.vcid = 63 := by rw [hv, hx63]; decide
      rw [if_pos hf63] at d2
      have hs := (hcor _ (List.getElem_mem hi)).same
      rw [d2.1, hs, hxe, block_length t ht _ _ _ hxr]
      unfold blockSize
      omega
    · have hv63 : f.header.vcid ≠ 63 := by
        rw [hv]
        intro e
        exact hx63 (wide_inj (v := x.1) (w := 63#6) e)
      rw [if_neg hv63] at d2
      have hdata : f.data = t.frame (packets x.1) x.1 x.2 := by
        rw [d2.1, hxe, block_length t ht _ _ _ hxr, hI]
        unfold block blockSize
        rw [List.take_left']
        rw [frame_length t ht _ _ _ hxr]; omega
      refine ⟨x, hx, hv, by rw [hdata, frame_length t ht _ _ _ hxr], fun _ => ⟨?_, ?_, hdata⟩⟩
      · rw [hv, List.map_take, hlast] at d3
        split at d3
        · exact d3
        · rename_i p hp
          split at hp
          · cases hp
          · cases hp
            rw [if_neg (by rw [← hv]; exact hv63), ← hh] at d3
            have hs := hsmall i x hx
            rw [header_counter t _ _ hs, header_counter t _ _ (by omega)] at d3
            apply BitVec.eq_of_toNat_eq
            rw [d3]
            unfold gap
            rw [show t.first x.1 + x.2 + 2 ^ 24 - (t.first x.1 + ((slots.take i).count x.1 - 1)) - 1 = 2 ^ 24 by omega, Nat.mod_self]
            rfl
      · unfold Bad
        rw [d2.2]
        by_cases he : (channel[i]).2 = (channel[i]).1 <;> simp [he]
  have hids : outs.map (·.header.vcid) = slots.map (BitVec.setWidth 16) := by
    have h2 := congrArg (List.map (BitVec.setWidth 16)) (number_fst [] slots)
    rw [← h2]
    apply List.ext_getElem?
    intro i
    rw [List.map_map, List.getElem?_map, List.getElem?_map]
    by_cases hi : i < outs.length
    · obtain ⟨x, hx, h1, _, _⟩ := hat i _ (List.getElem?_eq_getElem hi)
      rw [List.getElem?_eq_getElem hi, hx]
      simp [h1]
    · rw [List.getElem?_eq_none (by omega), List.getElem?_eq_none (by omega)]; rfl
  have hview : outs.map (fun f => (f.header.vcid, if f.header.vcid = 63 then [] else f.data)) =
      (number [] slots).map fun x => (x.1.setWidth 16, if x.1 = 63 then [] else t.frame (packets x.1) x.1 x.2) := by
    apply List.ext_getElem?
    intro i
    rw [List.getElem?_map, List.getElem?_map]
    by_cases hi : i < outs.length
    · obtain ⟨x, hx, h1, _, h2⟩ := hat i _ (List.getElem?_eq_getElem hi)
      rw [List.getElem?_eq_getElem hi, hx]
      simp only [Option.map_some, Option.some.injEq, h1, Prod.mk.injEq, true_and]
      by_cases h : x.1 = 63
      · rw [if_pos h, if_pos (by rw [h]; decide)]
      · have h3 : BitVec.setWidth 16 x.1 ≠ (63 : U16) := fun e => h (wide_inj (w := 63#6) e)
        rw [if_neg h, if_neg h3, (h2 h).2.2]
    · rw [List.getElem?_eq_none (by omega), List.getElem?_eq_none (by omega)]; rfl
  have hfilt : ∀ v : BitVec 6, v ≠ 63 → (outs.filter (fun f => f.header.vcid == v.setWidth 16)).map (·.data) = (List.range (slots.count v)).map (t.frame (packets v) v) := by
    intro v hv
    have hv' : v.setWidth 16 ≠ 63#16 := fun e => hv (wide_inj (w := 63#6) e)
    have h1 : (outs.filter (fun f => f.header.vcid == v.setWidth 16)).map (·.data) =
        ((outs.map (fun f => (f.header.vcid, if f.header.vcid = 63 then [] else f.data))).filter (fun y => y.1 == v.setWidth 16)).map (·.2) := by
      rw [List.filter_map, List.map_map]
      refine List.map_congr_left fun f hf => ?_
      have h2 : f.header.vcid = v.setWidth 16 := by simpa using (List.mem_filter.1 hf).2
      show f.data = if f.header.vcid = 63 then [] else f.data
      rw [if_neg (by rw [h2]; exact hv')]
    rw [h1, hview, List.filter_map, List.map_map]
    have h2 : (number [] slots).filter ((fun y : U16 × List U8 => y.1 == v.setWidth 16) ∘ fun x => (x.1.setWidth 16, if x.1 = 63 then [] else t.frame (packets x.1) x.1 x.2)) =
        (number [] slots).filter (fun x => x.1 == v) := by
      apply List.filter_congr
      intro x _
      show (x.1.setWidth 16 == v.setWidth 16) = (x.1 == v)
      by_cases h : x.1 = v
      · rw [h]; simp
      · have : (x.1 == v) = false := by simpa using h
        rw [this, beq_eq_false_iff_ne]
        exact fun e => h (wide_inj e)
    rw [h2, number_filter, List.map_map, List.count_nil, ← List.range_eq_range']
    refine List.map_congr_left fun n _ => ?_
    show (if v = 63 then [] else t.frame (packets v) v n) = _
    rw [if_neg hv]
  have hlong : ∀ g ∈ outs, ¬ Short t.insertSize t.trailerSize g := by
    intro g hg
    obtain ⟨i, hi⟩ := List.mem_iff_getElem?.1 hg
    obtain ⟨x, hx, _, hl, _⟩ := hat i g hi
    unfold Short
    unfold frameSize at hl
    omega
  obtain ⟨parts, c1, ⟨st, c2⟩, c3⟩ := C47_channels t.insertSize t.trailerSize outs hlong
  have c1' := c1.length
  refine ⟨parts, st, c2, by omega, c1, ?_, ?_⟩
  · intro q hq
    have := C49_wellformed _ _ _ _ _ c2 q hq
    exact ⟨this.2.1, this.2.2.2.2⟩
  intro v hv
  obtain ⟨st', c4⟩ := c3 (v.setWidth 16)
  have hmem : ∀ g ∈ outs.filter (fun f => f.header.vcid == v.setWidth 16), g ∈ outs ∧ g.header.vcid = v.setWidth 16 ∧ ∃ n, n < slots.count v ∧ g.data = t.frame (packets v) v n := by
    intro g hg
    have h1 := List.mem_filter.1 hg
    refine ⟨h1.1, by simpa using h1.2, ?_⟩
    have : g.data ∈ (outs.filter (fun f => f.header.vcid == v.setWidth 16)).map (·.data) := List.mem_map.2 ⟨g, hg, rfl⟩
    rw [hfilt v hv] at this
    obtain ⟨n, hn, e⟩ := List.mem_map.1 this
    exact ⟨n, List.mem_range.1 hn, e.symm⟩
  have hfroom : ∀ n, n < slots.count v → (n + 1) * t.zoneSize ≤ (packets v).flatten.length :=
    fun n hn => Nat.le_trans (Nat.mul_le_mul_right _ hn) (hsent v hv)
  have hpays : ∀ (fs : List Frame) (m : Nat), fs.map (·.data) = (List.range m).map (t.frame (packets v) v) → m ≤ slots.count v →
      (fs.map (fun g => payloadOf t.insertSize t.trailerSize g.data)).flatten = (packets v).flatten.take (m * t.zoneSize) := by
    intro fs m hfs hm
    have h1 : fs.map (fun g => payloadOf t.insertSize t.trailerSize g.data) = (List.range m).map fun n => ((packets v).flatten.drop (n * t.zoneSize)).take t.zoneSize := by
      have := congrArg (List.map (payloadOf t.insertSize t.trailerSize)) hfs
      rw [List.map_map, List.map_map] at this
      refine Eq.trans this (List.map_congr_left fun n hn => ?_)
      exact payload_frame t ht (packets v) v n hv (hfroom n (by have := List.mem_range.1 hn; omega))
    rw [h1]
    clear h1 hfs fs
    induction m with
    | zero => simp
    | succ m ih =>
      rw [List.range_succ, List.map_append, List.flatten_append, ih (by omega)]
      simp only [List.map_cons, List.map_nil, List.flatten_cons, List.flatten_nil, List.append_nil]
      rw [Nat.add_mul, Nat.one_mul, List.take_add]
  obtain ⟨ps, st2, qs, more, e1, e2, e3, e4, e5, e6⟩ := C46_framing t.insertSize t.trailerSize (v.setWidth 16)
    (outs.filter (fun f => f.header.vcid == v.setWidth 16)) [] (packets v)
    (fun g hg => (hmem g hg).2.1) (fun g hg => hlong g (hmem g hg).1)
    (fun g hg => by
      obtain ⟨_, _, n, hn, e⟩ := hmem g hg
      rw [e, payload_frame t ht _ _ _ hv (hfroom n hn), zone_length t _ _ (hfroom n hn)]
      have := ht.zone.2; omega)
    (fun g hg => by
      obtain ⟨i, hi⟩ := List.mem_iff_getElem?.1 (hmem g hg).1
      obtain ⟨x, _, h1, _, h2⟩ := hat i g hi
      have hx : x.1 ≠ 63 := by
        rw [(hmem g hg).2.1] at h1
        rw [← wide_inj h1]; exact hv
      exact ⟨(h2 hx).2.1, (h2 hx).1⟩)
    (hp v)
    (by rw [hpays _ _ (hfilt v hv) (Nat.le_refl _), List.nil_append]; exact List.take_prefix _ _)
    (by
      intro before g after he
      have hsplit := congrArg (List.map (·.data)) he
      rw [hfilt v hv, List.map_append, List.map_cons] at hsplit
      have hlen := congrArg List.length hsplit
      simp only [List.length_map, List.length_range, List.length_append, List.length_cons] at hlen
      have hbefore : before.map (·.data) = (List.range before.length).map (t.frame (packets v) v) := by
        have := congrArg (List.take before.length) hsplit
        rw [List.take_left' (by simp), ← List.map_take, List.take_range, Nat.min_eq_left (by omega)] at this
        exact this.symm
      have hg : g.data = t.frame (packets v) v before.length := by
        have := congrArg (fun l => l[before.length]?) hsplit
        rw [List.getElem?_append_right (by simp), List.getElem?_map, List.getElem?_range (by omega)] at this
        simpa using this.symm
      have hb : before.length < slots.count v := by omega
      rw [hpays before before.length hbefore (by omega), hg, payload_frame t ht _ _ _ hv (hfroom _ hb), zone_length t _ _ (hfroom _ hb),
        pointerOf_frame t ht _ _ _ hv (pointer_lt t ht _ _)]
      have hl : ((packets v).flatten.take (before.length * t.zoneSize)).length = before.length * t.zoneSize := by
        have := hfroom _ hb
        rw [Nat.add_mul, Nat.one_mul] at this
        rw [List.length_take]; omega
      rw [hl]
      exact pointer_first t (packets v) _)
  rw [hpays _ _ (hfilt v hv) (Nat.le_refl _)] at e5 e6
  have hl : ((packets v).flatten.take (slots.count v * t.zoneSize)).length = slots.count v * t.zoneSize := by
    have := hsent v hv
    rw [List.length_take]; omega
  rw [hl] at e5 e6
  simp only [List.length_nil, Nat.zero_add] at e5 e6
  refine ⟨qs, more, e4, e5, e6, ?_⟩
  obtain ⟨rfl, _⟩ := e1.unique c4
  rw [← e3]
  congr 1
  -- the parts of the slots of `v` are those of the frames of `v`
  have hz : (slots.zip parts).filter (fun x => x.1 == v) = ((outs.zip parts).filter (fun x => x.1.header.vcid == v.setWidth 16)).map fun x => (v, x.2) := by
    exact zip_channel v slots outs parts hids
  rw [hz, List.flatMap_map, List.flatMap_def]

open Spec.Transmitter in
/-- If the packets of a channel fill its frames exactly, all of them are received. -/
theorem C114_all (b : Build) (k : Codec) (hk : Bounded k ccsdsCode)
    (t : Transmitter) (ht : t.Valid) (packets : BitVec 6 → List (List U8)) (hp : ∀ v, ∀ q ∈ packets v, IsPacket q)
    (slots : List (BitVec 6)) (hne : slots ≠ []) (hsent : ∀ v, v ≠ 63 → slots.count v * t.zoneSize = (packets v).flatten.length)
    (hcount : ∀ v, t.first v + slots.count v ≤ 2 ^ 24)
    (rxs : List (List U8)) (hrx : List.Forall₂ t.Noisy (t.cadus packets slots) rxs)
    (pre post : List Bool) (hpre : ∀ i, ¬ Occurs (bits marker) pre i) (hpost : ∀ i, ¬ Occurs (bits marker) post i)
    (S : List U8) (hS : bits S = pre ++ bits rxs.flatten ++ post) (r : Reader) (hr : Smooth r S)
    (o : RS.Opts) (hI : o.interleave.toNat = t.depth) (hvf : o.virtualFill = t.fill) (hcorr : o.correct = true) (p : RsStage.Params)
    (s : RsStage.State) (hs : Runs b k ⟨t.randomized, some (o, p), t.blockSize⟩ r s) (hend : s.cons = .ended) :
    ∃ parts st, Collects FramedPackets.next (FramedPackets.new s.got t.insertSize t.trailerSize) parts.flatten (some st) ∧ parts.length = slots.length ∧
      ByFrame t.insertSize t.trailerSize s.got parts ∧
      ∀ v, v ≠ 63 → (((slots.zip parts).filter (fun x => x.1 == v)).flatMap (·.2)).map (·.data) = packets v := by
  obtain ⟨_, h⟩ := C114_received b k hk t ht packets hp slots hne (fun v hv => Nat.le_of_eq (hsent v hv)) hcount rxs hrx pre post hpre hpost S hS r hr o hI hvf hcorr p
  obtain ⟨parts, st, h1, h2, hb, _, h3⟩ := (h s hs).2.2 hend
  refine ⟨parts, st, h1, h2, hb, fun v hv => ?_⟩
  obtain ⟨qs, more, e1, _, e3, e4⟩ := h3 v hv
  cases more with
  | nil => rw [e4, e1, List.append_nil]
  | cons q more =>
    exfalso
    have h4 := e3 q rfl
    rw [hsent v hv, e1, List.flatten_append, List.flatten_cons, List.length_append, List.length_append] at h4
    omega

/-- The transmitter's encoder: a message with its check symbols is a code word, and no other check symbols make it one. -/
theorem C114_encoder (m : List U8) (hm : m.length = 223) (u : List U8) : ccsdsCode (m ++ u) ↔ u = rsParity m :=
  ⟨rsParity_unique m u hm, fun h => h ▸ rsParity_code m hm⟩

/-! ## A concrete transmission

Two channels share the link: channel 1 sends a packet of 300 and one of 130 bytes in two frames, channel 2 a packet of 215 bytes in one frame between them. A fill frame
comes between. Of every data unit byte 100 arrives as 7. -/

theorem noisy_set (t : Transmitter) (tx : List U8) (j : Nat) (x : U8) (hj : 10 ≤ j) : t.Noisy tx (tx.set j x) := by
  refine ⟨by simp, ?_, ?_⟩
  · rw [List.take_set_of_le hj]
  · intro i _
    have : (List.range tx.length).filter (fun l => 4 ≤ l ∧ (t.fill + (l - 4)) % t.depth = i ∧ (tx.set j x)[l]? ≠ tx[l]?) ⊆ [j] := by
      intro l hl
      have h := (List.mem_filter.1 hl).2
      simp only [decide_eq_true_eq] at h
      by_contra hne
      apply h.2.2
      rw [List.getElem?_set_ne]
      intro e; apply hne; rw [e]; simp
    have h2 := ((List.nodup_range (n := tx.length)).filter (fun l => decide (4 ≤ l ∧ (t.fill + (l - 4)) % t.depth = i ∧ (tx.set j x)[l]? ≠ tx[l]?))).subperm this
    exact Nat.le_trans h2.length_le (by simp)

def exTxP3 : List U8 := [0x08#8, 0x06#8, 0xc0#8, 0x01#8, 0x00#8, 0xd0#8] ++ List.replicate 209 9#8
def exTransmitter : Transmitter := ⟨157, 0, fun _ => 77, fun _ _ => [], fun _ _ => [], fun _ => List.replicate 217 0x55, 0, 0, 215, 1, true⟩
def exTxPackets (v : BitVec 6) : List (List U8) := if v = 1#6 then [exP1, exP2] else if v = 2#6 then [exTxP3] else []
def exTxSlots : List (BitVec 6) := [1, 63, 2, 1]

theorem exTransmitter_valid : exTransmitter.Valid :=
  ⟨fun _ _ => rfl, fun _ _ => rfl, fun _ => List.length_replicate, by decide, by decide, by decide⟩

theorem exTxPackets_packets (v : BitVec 6) (q : List U8) (hq : q ∈ exTxPackets v) : IsPacket q := by
  have h : q = exP1 ∨ q = exP2 ∨ q = exTxP3 := by
    unfold exTxPackets at hq
    split at hq
    · simp only [List.mem_cons, List.not_mem_nil, or_false] at hq
      rcases hq with h | h
      · exact .inl h
      · exact .inr (.inl h)
    · split at hq
      · simp only [List.mem_cons, List.not_mem_nil, or_false] at hq
        exact .inr (.inr hq)
      · simp at hq
  rcases h with rfl | rfl | rfl <;> exact ⟨by decide +kernel, by decide +kernel, by decide +kernel, by decide +kernel⟩

theorem exTxPackets_fill : ∀ v : BitVec 6, v ≠ 63 → exTxSlots.count v * 215 = (exTxPackets v).flatten.length := by decide +kernel

theorem exTx_counters : ∀ v : BitVec 6, exTransmitter.first v + exTxSlots.count v ≤ 2 ^ 24 := by
  intro v
  have : exTxSlots.count v ≤ exTxSlots.length := List.count_le_length
  have h3 : exTxSlots.length = 4 := rfl
  have h77 : exTransmitter.first v = 77 := rfl
  omega

theorem exTx_block : exTransmitter.blockSize = 255 := rfl

theorem nothing_in_nil (i : Nat) : ¬ Occurs (bits marker) [] i := by
  intro h
  have := h.length_le
  rw [bits_length] at this
  simp [marker] at this

example (b : Build) (p : RsStage.Params) (s : RsStage.State) (r : Reader)
    (hr : Smooth r ((exTransmitter.cadus exTxPackets exTxSlots).map fun c => c.set 100 7#8).flatten)
    (hs : Runs b (bddCodec ccsdsCode) ⟨exTransmitter.randomized, some (⟨1, 0, true, true⟩, p), exTransmitter.blockSize⟩ r s) (hend : s.cons = .ended) :
    ∃ parts st, Collects FramedPackets.next (FramedPackets.new s.got exTransmitter.insertSize exTransmitter.trailerSize) parts.flatten (some st) ∧ parts.length = exTxSlots.length ∧
      (((exTxSlots.zip parts).filter (fun x => x.1 == 1#6)).flatMap (·.2)).map (·.data) = [exP1, exP2] ∧
      (((exTxSlots.zip parts).filter (fun x => x.1 == 2#6)).flatMap (·.2)).map (·.data) = [exTxP3] := by
  have hn : List.Forall₂ exTransmitter.Noisy (exTransmitter.cadus exTxPackets exTxSlots) ((exTransmitter.cadus exTxPackets exTxSlots).map fun c => c.set 100 7#8) := by
    rw [List.forall₂_map_right_iff]
    exact List.forall₂_same.2 fun c _ => noisy_set exTransmitter c 100 7#8 (by omega)
  generalize ((exTransmitter.cadus exTxPackets exTxSlots).map fun c => c.set 100 7#8) = rxs at hr hn
  have hb : bits rxs.flatten = [] ++ bits rxs.flatten ++ [] := by rw [List.nil_append, List.append_nil]
  have hne : exTxSlots ≠ [] := by decide
  have hI : (⟨1, 0, true, true⟩ : RS.Opts).interleave.toNat = exTransmitter.depth := rfl
  have hv : (⟨1, 0, true, true⟩ : RS.Opts).virtualFill = exTransmitter.fill := rfl
  obtain ⟨parts, st, h1, h2, _, h3⟩ := C114_all b (bddCodec ccsdsCode) C113_distance.2 exTransmitter exTransmitter_valid exTxPackets exTxPackets_packets exTxSlots hne
    exTxPackets_fill exTx_counters rxs hn [] [] nothing_in_nil nothing_in_nil rxs.flatten hb r hr ⟨1, 0, true, true⟩ hI hv rfl p s hs hend
  exact ⟨parts, st, h1, h2, h3 1#6 (by decide), h3 2#6 (by decide)⟩

end Ccsds
