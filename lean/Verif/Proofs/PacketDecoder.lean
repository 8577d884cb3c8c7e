import Verif.Proofs.Reader
import Verif.Props.Header
/-! Helper lemmas about `PacketDecoder::next`. -/
namespace Ccsds
open Spec Reader

theorem packetLen_take (bs : List U8) (n : Nat) (h : 6 ≤ n) : packetLen (bs.take n) = packetLen bs := by
  unfold packetLen
  rw [field_take bs n 32 16 (by omega)]

theorem packetLen_append (bs cs : List U8) (h : 6 ≤ bs.length) : packetLen (bs ++ cs) = packetLen bs := by
  rw [← packetLen_take (bs ++ cs) bs.length h]; simp

theorem packetLen_ge (bs : List U8) : 7 ≤ packetLen bs := by unfold packetLen; omega

theorem decode_take6 (bs : List U8) (hl : 6 ≤ bs.length) :
    ∃ h, PrimaryHeader.decode (bs.take 6) = .ok h ∧ PrimaryHeader.decode bs = .ok h ∧
      6 + (h.lenMinus1.toNat + 1) = packetLen bs := by
  obtain ⟨h, e, _, _, _, _, _, _, hlen⟩ := C01_fields bs hl
  refine ⟨h, ?_, e, ?_⟩
  · rw [← e]; exact C01_prefix _ _ (by simp; omega) (by simp [List.take_take])
  · rw [hlen]; unfold packetLen; omega

/-- A whole packet is available. -/
theorem read_complete (t : Tail) (pre rest : List Ev) (hg : ∀ e ∈ pre, e.Good)
    (hlen : packetLen (evBytes pre) ≤ (evBytes pre).length) (hmax : packetLen (evBytes pre) ≤ 65536) :
    ∃ h pre', PrimaryHeader.decode (evBytes pre) = .ok h ∧ (∀ e ∈ pre', e.Good) ∧
      evBytes pre' = (evBytes pre).drop (packetLen (evBytes pre)) ∧
      6 + (h.lenMinus1.toNat + 1) = packetLen (evBytes pre) ∧
      Packet.read ⟨pre ++ rest, t⟩ =
        .ret (.ok ⟨h, (evBytes pre).take (packetLen (evBytes pre)), 0⟩, ⟨pre' ++ rest, t⟩) := by
  have h7 := packetLen_ge (evBytes pre)
  obtain ⟨h, e6, e, hl⟩ := decode_take6 (evBytes pre) (by omega)
  obtain ⟨p1, g1, b1, r1⟩ := readExactGo_enough t pre rest hg 6 [] (by omega)
  obtain ⟨p2, g2, b2, r2⟩ := readExactGo_enough t p1 rest g1 (packetLen (evBytes pre) - 6) []
    (by rw [b1]; simp; omega)
  refine ⟨h, p2, e, g2, ?_, hl, ?_⟩
  · rw [b2, b1, List.drop_drop]; congr 1; omega
  · simp only [Packet.read, readExact, PrimaryHeader.LEN, r1, List.nil_append, e6, hl, Packet.MAX_LEN, if_pos hmax, r2]
    rw [b1, ← List.take_add, show 6 + (packetLen (evBytes pre) - 6) = packetLen (evBytes pre) by omega]

/-- The header announces more than `MAX_LEN` bytes: the `assert!` fires. -/
theorem read_panic (t : Tail) (pre rest : List Ev) (hg : ∀ e ∈ pre, e.Good)
    (hlen : 6 ≤ (evBytes pre).length) (hmax : 65536 < packetLen (evBytes pre)) :
    Packet.read ⟨pre ++ rest, t⟩ = .panic := by
  obtain ⟨h, e6, e, hl⟩ := decode_take6 (evBytes pre) (by omega)
  obtain ⟨p1, g1, b1, r1⟩ := readExactGo_enough t pre rest hg 6 [] (by omega)
  simp only [Packet.read, readExact, PrimaryHeader.LEN, r1, List.nil_append, e6, hl, Packet.MAX_LEN]
  rw [if_neg (by omega)]

/-- The packet is interrupted by a failing `read`. -/
theorem read_fail (t : Tail) (pre rest rest' : List Ev) (k : IoKind) (hg : ∀ e ∈ pre, e.Good)
    (hlen : (evBytes pre).length < packetLen (evBytes pre))
    (hmax : 6 ≤ (evBytes pre).length → packetLen (evBytes pre) ≤ 65536)
    (hf : ∀ m acc, readExactGo t rest (m + 1) acc = (some k, acc, rest')) :
    Packet.read ⟨pre ++ rest, t⟩ = .ret (.error (.io k), ⟨rest', t⟩) := by
  have hf' : ∀ m acc, 0 < m → readExactGo t rest m acc = (some k, acc, rest') := by
    intro m acc hm
    obtain ⟨m, rfl⟩ : ∃ n, m = n + 1 := ⟨m - 1, by omega⟩
    exact hf m acc
  by_cases h6 : (evBytes pre).length < 6
  · have r1 := readExactGo_short t pre rest hg 6 [] h6
    rw [hf' _ _ (by omega)] at r1
    simp only [Packet.read, readExact, PrimaryHeader.LEN, r1]
  · obtain ⟨h, e6, e, hl⟩ := decode_take6 (evBytes pre) (by omega)
    obtain ⟨p1, g1, b1, r1⟩ := readExactGo_enough t pre rest hg 6 [] (by omega)
    have r2 := readExactGo_short t p1 rest g1 (packetLen (evBytes pre) - 6) [] (by rw [b1]; simp; omega)
    rw [hf' _ _ (by rw [b1]; simp; omega)] at r2
    simp only [Packet.read, readExact, PrimaryHeader.LEN, r1, List.nil_append, e6, hl, Packet.MAX_LEN,
      if_pos (hmax (by omega)), r2]

theorem readExactGo_err (t : Tail) (k : IoKind) (hk : k ≠ .interrupted) (rest : List Ev) (m : Nat) (acc : List U8) :
    readExactGo t (.err k :: rest) (m + 1) acc = (some k, acc, rest) := by simp [readExactGo, hk]
theorem readExactGo_empty (t : Tail) (rest : List Ev) (m : Nat) (acc : List U8) :
    readExactGo t (.data [] :: rest) (m + 1) acc = (some .unexpectedEof, acc, rest) := by simp [readExactGo]
theorem readExactGo_eof (m : Nat) (acc : List U8) :
    readExactGo .eof [] (m + 1) acc = (some .unexpectedEof, acc, []) := by simp [readExactGo]
theorem readExactGo_failing (c : Nat) (m : Nat) (acc : List U8) :
    readExactGo (.fail c) [] (m + 1) acc = (some (.other c), acc, []) := by simp [readExactGo]

/-- `next` on a reader that delivers `bs`: a whole packet is there. -/
theorem next_complete {r : Reader} {bs : List U8} (hd : r.Delivers bs) (o : Nat)
    (hlen : packetLen bs ≤ bs.length) (hmax : packetLen bs ≤ 65536) :
    ∃ h r', PrimaryHeader.decode bs = .ok h ∧ r'.Delivers (bs.drop (packetLen bs)) ∧
      PacketDecoder.next ⟨r, o⟩ = .ret (some (.ok ⟨h, bs.take (packetLen bs), o⟩), ⟨r', o + packetLen bs⟩) := by
  obtain ⟨hg, he, ht⟩ := hd
  obtain ⟨script, tail⟩ := r
  simp only at hg he ht
  subst he ht
  obtain ⟨h, pre', e, g, b, hl, hr⟩ := read_complete .eof script [] hg hlen hmax
  simp only [List.append_nil] at hr
  refine ⟨h, ⟨pre', .eof⟩, e, ⟨g, b, rfl⟩, ?_⟩
  simp only [PacketDecoder.next, hr, PrimaryHeader.LEN, hl]

theorem next_panic {r : Reader} {bs : List U8} (hd : r.Delivers bs) (o : Nat)
    (hlen : 6 ≤ bs.length) (hmax : 65536 < packetLen bs) : PacketDecoder.next ⟨r, o⟩ = .panic := by
  obtain ⟨hg, he, ht⟩ := hd
  obtain ⟨script, tail⟩ := r
  simp only at hg he ht
  subst he ht
  have hr := read_panic .eof script [] hg hlen hmax
  simp only [List.append_nil] at hr
  simp only [PacketDecoder.next, hr]

theorem next_none {r : Reader} {bs : List U8} (hd : r.Delivers bs) (o : Nat)
    (hlen : bs.length < packetLen bs) (hmax : 6 ≤ bs.length → packetLen bs ≤ 65536) :
    PacketDecoder.next ⟨r, o⟩ = .ret (none, ⟨⟨[], .eof⟩, o⟩) := by
  obtain ⟨hg, he, ht⟩ := hd
  obtain ⟨script, tail⟩ := r
  simp only at hg he ht
  subst he ht
  have hr := read_fail .eof script [] [] .unexpectedEof hg hlen hmax readExactGo_eof
  simp only [List.append_nil] at hr
  simp only [PacketDecoder.next, hr, if_true]

end Ccsds
