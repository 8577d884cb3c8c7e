import Verif.Proofs.Timecode
/-!
# C14 – C19: time codes
-/
namespace Ccsds
open Spec Timecode

theorem epoch_congr (s : TimeScale) {x y : Nat} (h : x = y) :
    (Outcome.ret (.ok ⟨s, x⟩) : Outcome (Except Error Epoch)) = .ret (.ok ⟨s, y⟩) := by rw [h]

/-! ## C14  CDS time codes decode to the exact instant -/

/-- The formats of the documented table with a sub-millisecond field of 0 or 2 bytes. -/
def CdsMicros (numDay numSub : Nat) : Prop := (numDay = 2 ∨ numDay = 3) ∧ (numSub = 0 ∨ numSub = 2)

/-- The day, millisecond and sub-millisecond fields are the consecutive big-endian fields of the buffer and the result is
the exact UTC instant; `NotEnoughData` exactly when the buffer is too short. -/
theorem C14_decode (b : Build) (nd ns : Nat) (hf : CdsMicros nd ns) (bs : List U8) :
    (bs.length < nd + ns + 4 → decode b (.cds nd ns) bs = .ret (.error (.notEnoughData bs.length (nd + ns + 4)))) ∧
    (nd + ns + 4 ≤ bs.length → decode b (.cds nd ns) bs =
      .ret (.ok ⟨.utc, cdsInstant (field bs 0 (8 * nd)) (field bs (8 * nd) 32) (field bs (8 * nd + 32) (8 * ns))⟩)) := by
  refine ⟨fun h => by simp [decode, decodeCds, MILLIS_BYTES, h], fun h => ?_⟩
  have hnd : nd = 2 ∨ nd = 3 := hf.1
  have hdays : (be32 (List.replicate (4 - nd) 0 ++ bs.take nd)).toNat = field bs 0 (8 * nd) := by
    rw [be32_toNat _ (by simp; omega), beNat_zeros]
    have := beNat_slice bs 0 nd
    simpa using this
  have hms : (be32 ((bs.drop nd).take 4)).toNat = field bs (8 * nd) 32 := by
    rw [be32_toNat _ (by simp; omega), beNat_slice]
  simp only [decode, decodeCds, MILLIS_BYTES]
  rw [if_neg (by omega), if_neg (by omega)]
  rcases hf.2 with rfl | rfl
  · simp only [hdays, hms]
    simp only [cdsInstant, compose, DELTA_SECS, daysTo1958_eq, Nat.mul_zero, field, List.take_zero, natOfBits_nil]
    refine epoch_congr _ ?_
    rw [show (0 : U32).toNat = 0 from rfl]
    omega
  · have hus : (be32 ([0, 0] ++ ((bs.drop nd).drop 4).take 2)).toNat = field bs (8 * nd + 32) (8 * 2) := by
      rw [be32_toNat _ (by simp; omega), show ([0, 0] : List U8) = List.replicate 2 0 from rfl, beNat_zeros,
        List.drop_drop, beNat_slice, Nat.mul_add]
    have hlt := field_lt bs (8 * nd + 32) (8 * 2)
    have hm : b.mul (be32 ([0, 0] ++ ((bs.drop nd).drop 4).take 2)) 1000
        = .ret (be32 ([0, 0] ++ ((bs.drop nd).drop 4).take 2) * 1000) := by
      simp only [Build.mul, hus]
      rw [if_neg]
      rw [Bool.and_eq_true, decide_eq_true_eq]
      rintro ⟨_, h2⟩
      have : (1000 : U32).toNat = 1000 := rfl
      rw [this] at h2
      omega
    simp only [hm, Outcome.ret_bind, BitVec.toNat_mul, hus, hdays, hms]
    have : (1000 : U32).toNat = 1000 := rfl
    rw [this, Nat.mod_eq_of_lt (by omega)]
    simp only [cdsInstant, compose, DELTA_SECS, daysTo1958_eq]
    refine epoch_congr _ ?_
    omega

/-- Decoding an encoded time code (followed by anything) gives the encoded instant. -/
theorem C14_roundtrip (b : Build) (nd ns : Nat) (hf : CdsMicros nd ns) (days ms us : Nat) (bs rest : List U8)
    (hfit : fits [8 * nd, 32, 8 * ns] [days, ms, us])
    (hbs : bits bs = writeFields [8 * nd, 32, 8 * ns] [days, ms, us]) :
    decode b (.cds nd ns) (bs ++ rest) = .ret (.ok ⟨.utc, cdsInstant days ms us⟩) := by
  have hl : bs.length = nd + ns + 4 := by
    have := congrArg List.length hbs
    simp [writeFields, natBits_length] at this
    omega
  rw [(C14_decode b nd ns hf (bs ++ rest)).2 (by simp; omega)]
  obtain ⟨h1, h2, h3, _⟩ := hfit
  have f : ∀ s w, s + w ≤ 8 * bs.length → field (bs ++ rest) s w = field bs s w := by
    intro s w h
    rw [← field_take (bs ++ rest) bs.length s w h, List.take_left]
  rw [f _ _ (by omega), f _ _ (by omega), f _ _ (by omega)]
  simp only [field, hbs, writeFields]
  rw [List.drop_zero, List.take_left' (natBits_length _ _), List.drop_left' (natBits_length _ _),
    List.take_left' (natBits_length _ _), ← List.append_assoc, List.drop_left' (by simp [natBits_length]),
    List.append_nil, List.take_of_length_le (by simp [natBits_length])]
  simp only [natOfBits_natBits, Nat.mod_eq_of_lt h1, Nat.mod_eq_of_lt h2, Nat.mod_eq_of_lt h3]

/-- Only the leading `num_day + num_submillis + 4` bytes are read. -/
theorem C14_prefix (b : Build) (nd ns : Nat) (hf : CdsMicros nd ns) (bs rest : List U8) (h : nd + ns + 4 ≤ bs.length) :
    decode b (.cds nd ns) (bs ++ rest) = decode b (.cds nd ns) bs := by
  rw [(C14_decode b nd ns hf bs).2 h, (C14_decode b nd ns hf (bs ++ rest)).2 (by simp; omega)]
  have f : ∀ s w, s + w ≤ 8 * bs.length → field (bs ++ rest) s w = field bs s w := by
    intro s w h
    rw [← field_take (bs ++ rest) bs.length s w h, List.take_left]
  rw [f _ _ (by omega), f _ _ (by omega), f _ _ (by omega)]

/-- The example of the crate documentation: 2024-11-01T00:00:01.684519Z is day 24411 since 1958, 1684 ms, 519 us. -/
example : decode ⟨true⟩ (.cds 2 2) [0x5f, 0x5b, 0x00, 0x00, 0x06, 0x94, 0x02, 0x07] =
    .ret (.ok ⟨.utc, cdsInstant 24411 1684 519⟩) := by decide +kernel

/-! ## C15  CDS time codes order like their bytes -/

theorem lex_iff (as bs : List U8) (h : as.length = bs.length) : beNat as < beNat bs ↔ as < bs := by
  induction as generalizing bs with
  | nil =>
    cases bs with
    | nil => simp [beNat]
    | cons => simp at h
  | cons a as ih =>
    cases bs with
    | nil => simp at h
    | cons c bs =>
      simp only [List.length_cons, Nat.add_right_cancel_iff] at h
      rw [beNat_cons, beNat_cons, List.cons_lt_cons_iff, h]
      have h1 := beNat_lt as
      have h2 := beNat_lt bs
      rw [h] at h1
      generalize hp : 256 ^ bs.length = p at *
      have hd := ih bs h
      constructor
      · intro hlt
        by_cases hac : a.toNat < c.toNat
        · left; exact BitVec.lt_def.2 hac
        · right
          have : a.toNat = c.toNat := by
            rcases Nat.lt_or_ge c.toNat a.toNat with hca | hca
            · exfalso
              have : (c.toNat + 1) * p ≤ a.toNat * p := Nat.mul_le_mul_right p hca
              rw [Nat.add_mul] at this
              omega
            · omega
          refine ⟨BitVec.eq_of_toNat_eq this, hd.1 ?_⟩
          rw [this] at hlt
          omega
      · rintro (hlt | ⟨rfl, hlt⟩)
        · have hlt := BitVec.lt_def.1 hlt
          have : (a.toNat + 1) * p ≤ c.toNat * p := Nat.mul_le_mul_right p hlt
          rw [Nat.add_mul] at this
          omega
        · have := hd.2 hlt
          omega

/-- The fields of a time code are in range: milliseconds of a day, microseconds of a millisecond. -/
def CdsInRange (nd ns : Nat) (bs : List U8) : Prop :=
  bs.length = nd + ns + 4 ∧ field bs (8 * nd) 32 < 86400000 ∧ field bs (8 * nd + 32) (8 * ns) < 1000

/-- For in-range time codes of one format, the decoded instants compare exactly as the byte strings compare
lexicographically (and are equal only for equal byte strings). -/
theorem C15_order (b : Build) (nd ns : Nat) (hf : CdsMicros nd ns) (as bs : List U8) (ha : CdsInRange nd ns as)
    (hb : CdsInRange nd ns bs) :
    ∃ x y, decode b (.cds nd ns) as = .ret (.ok ⟨.utc, x⟩) ∧ decode b (.cds nd ns) bs = .ret (.ok ⟨.utc, y⟩) ∧
      (x < y ↔ as < bs) ∧ (x = y ↔ as = bs) := by
  refine ⟨_, _, (C14_decode b nd ns hf as).2 (by rw [ha.1]; omega), (C14_decode b nd ns hf bs).2 (by rw [hb.1]; omega), ?_⟩
  have split : ∀ (l : List U8), l.length = nd + ns + 4 → beNat l =
      (field l 0 (8 * nd) * 2 ^ 32 + field l (8 * nd) 32) * 2 ^ (8 * ns) + field l (8 * nd + 32) (8 * ns) := by
    intro l hl
    have e : bits l = (bits l).take (8 * nd) ++ (((bits l).drop (8 * nd)).take 32 ++ ((bits l).drop (8 * nd + 32)).take (8 * ns)) := by
      rw [List.take_of_length_le (l := (bits l).drop (8 * nd + 32)) (by simp; omega), ← List.drop_drop,
        List.take_append_drop, List.take_append_drop]
    rw [beNat_eq]
    conv => lhs; rw [e]
    rw [natOfBits_append, natOfBits_append]
    have l1 : (((bits l).drop (8 * nd)).take 32).length = 32 := by simp; omega
    have l2 : (((bits l).drop (8 * nd + 32)).take (8 * ns)).length = 8 * ns := by simp; omega
    rw [List.length_append, l1, l2]
    simp only [field, List.drop_zero]
    rw [Nat.pow_add, Nat.add_mul, ← Nat.mul_assoc, Nat.add_assoc]
  obtain ⟨la, ma, ua⟩ := ha
  obtain ⟨lb, mb, ub⟩ := hb
  have hlex := lex_iff as bs (by omega)
  have heq : as = bs ↔ beNat as = beNat bs := by
    constructor
    · rintro rfl; rfl
    · intro h
      rw [beNat_eq, beNat_eq] at h
      exact bits_inj (natOfBits_inj (by simp; omega) h)
  rw [heq, ← hlex, split as la, split bs lb]
  have wa := field_lt as (8 * nd + 32) (8 * ns)
  have wb := field_lt bs (8 * nd + 32) (8 * ns)
  unfold cdsInstant
  generalize field as 0 (8 * nd) = d1 at *
  generalize field bs 0 (8 * nd) = d2 at *
  generalize field as (8 * nd) 32 = m1 at *
  generalize field bs (8 * nd) 32 = m2 at *
  generalize field as (8 * nd + 32) (8 * ns) = u1 at *
  generalize field bs (8 * nd + 32) (8 * ns) = u2 at *
  rcases hf.2 with rfl | rfl
  · simp only [Nat.mul_zero, Nat.pow_zero] at *
    omega
  · simp only [Nat.reduceMul, Nat.reducePow] at *
    omega

example : CdsMicros 2 2 ∧ CdsInRange 2 2 [0x5f, 0x5b, 0x00, 0x00, 0x06, 0x94, 0x02, 0x07] := by
  unfold CdsMicros CdsInRange; decide +kernel

/-! ## C16  Unsupported CDS formats -/

/-- The documented table of CDS formats. -/
def CdsDocumented (nd ns : Nat) : Prop := (nd = 2 ∨ nd = 3) ∧ (ns = 0 ∨ ns = 2 ∨ ns = 4)

/-- Full statement: formats outside the table give `Error::Timecode`, and the 4-byte field counts picoseconds. -/
def C16_full : Prop :=
  (∀ b nd ns bs, ¬ CdsDocumented nd ns → nd + ns + 4 ≤ bs.length →
    decode b (.cds nd ns) bs = .ret (.error .timecodeConfig)) ∧
  (∀ b nd bs, CdsDocumented nd 4 → nd + 8 ≤ bs.length →
    decode b (.cds nd 4) bs = .ret (.ok ⟨.utc,
      cdsInstant (field bs 0 (8 * nd)) (field bs (8 * nd) 32) 0 + field bs (8 * nd + 32) 32 / 1000⟩))

/-- What the code does for every format that C14 does not cover. -/
theorem C16_behaviour (b : Build) (nd ns : Nat) (bs : List U8) (h : nd + ns + 4 ≤ bs.length) :
    (4 < nd → decode b (.cds nd ns) bs = .panic) ∧
    (nd ≤ 4 → ns ≠ 0 → ns ≠ 2 → ns ≠ 4 → decode b (.cds nd ns) bs = .ret (.error .timecodeConfig)) ∧
    (nd ≤ 4 → ns = 0 → decode b (.cds nd ns) bs =
      .ret (.ok ⟨.utc, cdsInstant (field bs 0 (8 * nd)) (field bs (8 * nd) 32) 0⟩)) ∧
    (nd ≤ 4 → ns = 4 → decode b (.cds nd ns) bs =
      if b.overflowChecks ∧ 2 ^ 32 ≤ field bs (8 * nd + 32) 32 * 1000000 then .panic
      else .ret (.ok ⟨.utc, cdsInstant (field bs 0 (8 * nd)) (field bs (8 * nd) 32) 0
        + field bs (8 * nd + 32) 32 * 1000000 % 2 ^ 32⟩)) := by
  have hdays : nd ≤ 4 → (be32 (List.replicate (4 - nd) 0 ++ bs.take nd)).toNat = field bs 0 (8 * nd) := by
    intro hnd
    rw [be32_toNat _ (by simp; omega), beNat_zeros]
    have := beNat_slice bs 0 nd
    simpa using this
  have hms : (be32 ((bs.drop nd).take 4)).toNat = field bs (8 * nd) 32 := by
    rw [be32_toNat _ (by simp; omega), beNat_slice]
  have hus : (be32 (((bs.drop nd).drop 4).take 4)).toNat = field bs (8 * nd + 32) 32 := by
    rw [be32_toNat _ (by simp; omega), List.drop_drop, beNat_slice, Nat.mul_add]
  simp only [decode, decodeCds, MILLIS_BYTES]
  rw [if_neg (by omega)]
  refine ⟨fun hnd => by rw [if_pos hnd], fun hnd h0 h2 h4 => ?_, fun hnd h0 => ?_, fun hnd h4 => ?_⟩
  · rw [if_neg (by omega)]
    split
    · exact absurd rfl h0
    · exact absurd rfl h2
    · exact absurd rfl h4
    · rfl
  · subst h0
    rw [if_neg (by omega)]
    simp only [hdays hnd, hms, cdsInstant, compose, DELTA_SECS, daysTo1958_eq]
    refine epoch_congr _ ?_
    rw [show (0 : U32).toNat = 0 from rfl]
    omega
  · subst h4
    rw [if_neg (by omega)]
    have : (1000000 : U32).toNat = 1000000 := rfl
    simp only [Build.mul, hus, this]
    by_cases hc : b.overflowChecks = true ∧ 2 ^ 32 ≤ field bs (8 * nd + 32) 32 * 1000000
    · rw [if_pos (by simpa using hc), if_pos (by simpa using hc)]; rfl
    · rw [if_neg (by simpa using hc), if_neg (by simpa using hc)]
      simp only [Outcome.ret_bind, BitVec.toNat_mul, hus, this, hdays hnd, hms, cdsInstant, compose, DELTA_SECS, daysTo1958_eq]
      refine epoch_congr _ ?_
      omega

/-- The code violates the full statement: five day bytes make `decode` panic. -/
theorem C16_violated : ¬ C16_full := by
  intro h
  have := h.1 ⟨true⟩ 5 0 (List.replicate 9 0) (by unfold CdsDocumented; omega) (by simp)
  rw [(C16_behaviour ⟨true⟩ 5 0 (List.replicate 9 0) (by simp)).1 (by omega)] at this
  cases this

/-- … and also its second half: one picosecond is decoded as one million nanoseconds. -/
theorem C16_violated_picoseconds : ∃ bs, decode ⟨true⟩ (.cds 2 4) bs = .ret (.ok ⟨.utc, cdsInstant 0 0 1000⟩) ∧
    bs.length = 10 ∧ field bs 48 32 = 1 := ⟨[0, 0, 0, 0, 0, 0, 0, 0, 0, 1], by decide +kernel, rfl, by decide +kernel⟩

/-- True part: with a sub-millisecond width other than 0, 2, 4 (and at most 4 day bytes) the result is `Error::Timecode`, and
short buffers give `NotEnoughData`, never a panic.  Missing: day widths 0, 1, 4 (accepted), above 4 (panic), and the 4-byte
sub-millisecond field (wrong value or overflow), see `C16_behaviour`. -/
theorem C16_partial (b : Build) (nd ns : Nat) (bs : List U8) :
    (bs.length < nd + ns + 4 → decode b (.cds nd ns) bs = .ret (.error (.notEnoughData bs.length (nd + ns + 4)))) ∧
    (nd + ns + 4 ≤ bs.length → nd ≤ 4 → ¬ (ns = 0 ∨ ns = 2 ∨ ns = 4) →
      decode b (.cds nd ns) bs = .ret (.error .timecodeConfig)) :=
  ⟨fun h => by simp [decode, decodeCds, MILLIS_BYTES, h],
   fun h hnd hns => (C16_behaviour b nd ns bs h).2.1 hnd (by omega) (by omega) (by omega)⟩

/-! ## C17  CUC time codes decode to the exact instant -/

/-- `n` is `x * 2 ^ e` truncated to an integer. -/
def IsTrunc (x : Nat) (e : Int) (n : Nat) : Prop :=
  match e with
  | .ofNat k => n = x * 2 ^ k
  | .negSucc k => n * 2 ^ (k + 1) ≤ x ∧ x < (n + 1) * 2 ^ (k + 1)

/-- `n` is `trunc(fine * mult)` as an unsigned 64-bit integer, for a multiplier that is absent (1) or finite; negative
products count as 0. -/
def IsFineNanos (fine : Nat) (mult : Option F32) (n : Nat) : Prop :=
  match mult with
  | none => n = fine
  | some (.fin false m e) => n < 2 ^ 64 ∧ IsTrunc (fine * m) e n
  | some (.fin true _ _) => n = 0
  | _ => False

theorem fineNanos_spec (fine : Nat) (hfine : fine < 2 ^ 24) (mult : Option F32) (n : Nat) (h : IsFineNanos fine mult n) :
    fineNanos fine (mult.getD F32one) = n := by
  match mult, h with
  | none, h =>
    simp only [IsFineNanos] at h
    subst h
    simp [fineNanos, F32one]; omega
  | some (.fin true m e), h => simp only [IsFineNanos] at h; subst h; simp [fineNanos]
  | some (.fin false m (.ofNat k)), h =>
    obtain ⟨h1, h2⟩ := h
    simp only [IsTrunc] at h2
    have : ¬ (Int.ofNat k < 0) := by simp
    simp only [Option.getD_some, fineNanos, Bool.false_eq_true, if_false, this]
    rw [show (Int.ofNat k).natAbs = k from rfl, ← h2]
    omega
  | some (.fin false m (.negSucc k)), h =>
    obtain ⟨h1, h2, h3⟩ := h
    have : Int.negSucc k < 0 := Int.negSucc_lt_zero k
    simp only [Option.getD_some, fineNanos, Bool.false_eq_true, if_false, this, if_true, Int.natAbs_negSucc]
    have : fine * m / 2 ^ (k + 1) = n := by
      apply Nat.div_eq_of_lt_le
      · exact h2
      · exact h3
    rw [this]; omega

/-- With `num_coarse` in 1..=4 and `num_fine` in 0..=3 the result is the TAI instant given by the big-endian coarse seconds
and the truncated product of the big-endian fine field and the multiplier; short buffers give `NotEnoughData`; every other
format gives `Error::Timecode`, whatever the buffer. -/
theorem C17_decode (b : Build) (nc nf : Nat) (mult : Option F32) (bs : List U8) :
    (¬ (1 ≤ nc ∧ nc ≤ 4 ∧ nf ≤ 3) → decode b (.cuc nc nf mult) bs = .ret (.error .timecodeConfig)) ∧
    (1 ≤ nc ∧ nc ≤ 4 ∧ nf ≤ 3 → bs.length < nc + nf →
      decode b (.cuc nc nf mult) bs = .ret (.error (.notEnoughData bs.length (nc + nf)))) ∧
    (1 ≤ nc ∧ nc ≤ 4 ∧ nf ≤ 3 → nc + nf ≤ bs.length → ∀ n, IsFineNanos (field bs (8 * nc) (8 * nf)) mult n →
      decode b (.cuc nc nf mult) bs = .ret (.ok ⟨.tai, cucInstant (field bs 0 (8 * nc)) n⟩)) := by
  refine ⟨fun h => ?_, fun h hl => ?_, fun h hl n hn => ?_⟩
  · simp only [decode, decodeCuc]
    by_cases h1 : 1 ≤ nc ∧ nc ≤ 4
    · rw [if_neg (by simpa using h1), if_pos (by omega)]
    · rw [if_pos h1]
  · simp only [decode, decodeCuc]
    rw [if_neg (by omega), if_neg (by omega), if_pos hl]
  · simp only [decode, decodeCuc]
    rw [if_neg (by omega), if_neg (by omega), if_neg (by omega), beNat_zeros, beNat_zeros, beNat_slice]
    have hc : beNat (bs.take nc) = field bs 0 (8 * nc) := by
      have := beNat_slice bs 0 nc
      simpa using this
    have hfl := field_lt bs (8 * nc) (8 * nf)
    have : (2 : Nat) ^ (8 * nf) ≤ 2 ^ 24 := Nat.pow_le_pow_right (by omega) (by omega)
    rw [hc, fineNanos_spec _ (by omega) _ _ hn]
    simp only [compose, cucInstant, DELTA_SECS, daysTo1958_eq]
    refine epoch_congr _ ?_
    omega

/-- For every multiplier, also infinite ones, NaN, and those whose product is too large, decoding succeeds with the coarse seconds and a number of nanoseconds below `2^64`: the most
there is, for a product that is infinite or too large; none, for a product that is negative or not a number (infinity times 0 included). -/
theorem C17_saturates (b : Build) (nc nf : Nat) (mult : Option F32) (bs : List U8) (h : 1 ≤ nc ∧ nc ≤ 4 ∧ nf ≤ 3) (hl : nc + nf ≤ bs.length) :
    ∃ n, n < 2 ^ 64 ∧ decode b (.cuc nc nf mult) bs = .ret (.ok ⟨.tai, cucInstant (field bs 0 (8 * nc)) n⟩) ∧
      (mult = some .nan → n = 0) ∧ (mult = some (.inf true) → n = 0) ∧
      (mult = some (.inf false) → field bs (8 * nc) (8 * nf) = 0 → n = 0) ∧
      (mult = some (.inf false) → field bs (8 * nc) (8 * nf) ≠ 0 → n = 2 ^ 64 - 1) ∧
      (∀ m e q, mult = some (.fin false m e) → IsTrunc (field bs (8 * nc) (8 * nf) * m) e q → 2 ^ 64 ≤ q → n = 2 ^ 64 - 1) := by
  have hfl := field_lt bs (8 * nc) (8 * nf)
  have hp : (2 : Nat) ^ (8 * nf) ≤ 2 ^ 24 := Nat.pow_le_pow_right (by omega) (by omega)
  refine ⟨fineNanos (field bs (8 * nc) (8 * nf)) (mult.getD F32one), ?_, ?_, ?_, ?_, ?_, ?_, ?_⟩
  · unfold fineNanos
    split
    · split
      · omega
      · exact Nat.lt_of_le_of_lt (Nat.min_le_left _ _) (by omega)
    · split
      · omega
      · split <;> omega
    · omega
  · simp only [decode, decodeCuc]
    rw [if_neg (by omega), if_neg (by omega), if_neg (by omega), beNat_zeros, beNat_zeros, beNat_slice]
    have hc : beNat (bs.take nc) = field bs 0 (8 * nc) := by
      have := beNat_slice bs 0 nc
      simpa using this
    rw [hc]
    simp only [compose, cucInstant, DELTA_SECS, daysTo1958_eq]
    refine epoch_congr _ ?_
    omega
  · rintro rfl; rfl
  · rintro rfl; rfl
  · rintro rfl h0; simp [fineNanos, h0]
  · rintro rfl h0; simp [fineNanos, h0]
  · rintro m e q rfl hq hge
    match e, hq with
    | .ofNat k, hq =>
      simp only [IsTrunc] at hq
      have : ¬ (Int.ofNat k < 0) := by simp
      simp only [Option.getD_some, fineNanos, Bool.false_eq_true, if_false, this]
      rw [show (Int.ofNat k).natAbs = k from rfl, ← hq]
      omega
    | .negSucc k, ⟨h2, h3⟩ =>
      have : Int.negSucc k < 0 := Int.negSucc_lt_zero k
      simp only [Option.getD_some, fineNanos, Bool.false_eq_true, if_false, this, if_true, Int.natAbs_negSucc]
      have : field bs (8 * nc) (8 * nf) * m / 2 ^ (k + 1) = q := by
        apply Nat.div_eq_of_lt_le
        · exact h2
        · exact h3
      rw [show k.succ = k + 1 from rfl, this]; omega

/-- Multipliers NaN, infinity and 10^20. -/
example : decode ⟨true⟩ (.cuc 1 1 (some .nan)) [1, 2] = .ret (.ok ⟨.tai, cucInstant 1 0⟩) ∧
    decode ⟨true⟩ (.cuc 1 1 (some (.inf false))) [1, 2] = .ret (.ok ⟨.tai, cucInstant 1 (2 ^ 64 - 1)⟩) ∧
    decode ⟨true⟩ (.cuc 1 1 (some (.fin false 11368684 43))) [1, 2] = .ret (.ok ⟨.tai, cucInstant 1 (2 ^ 64 - 1)⟩) := by
  decide +kernel

/-- The example of the crate's tests (EOS, multiplier 15200): fine 0x801f gives 498544800 ns. -/
example : field [0x7d, 0xb5, 0xbf, 0x2f, 0x80, 0x1f] 32 16 = 0x801f ∧
    IsFineNanos 0x801f (some (.fin false 475 5)) 498544800 ∧
    decode ⟨true⟩ (.cuc 4 2 (some (.fin false 475 5))) [0x7d, 0xb5, 0xbf, 0x2f, 0x80, 0x1f]
      = .ret (.ok ⟨.tai, cucInstant 0x7db5bf2f 498544800⟩) := by
  refine ⟨by decide +kernel, ⟨by omega, ?_⟩, by decide +kernel⟩
  show _ = _ * 2 ^ 5
  omega

/-! ## C18  The EOS helper of the Python bindings -/

/-- Full statement. -/
def C18_full : Prop := ∀ b bs, 6 ≤ bs.length → ∃ e, decodeEos b bs = .ret (.ok e)

/-- The helper fails on every buffer whatsoever. -/
theorem C18_always_fails (b : Build) (bs : List U8) : decodeEos b bs = .ret (.error .timecodeConfig) :=
  (C17_decode b 2 4 _ bs).1 (by omega)

theorem C18_violated : ¬ C18_full := by
  intro h
  obtain ⟨e, he⟩ := h ⟨true⟩ (List.replicate 6 0) (by simp)
  rw [C18_always_fails] at he
  cases he

/-- The JPSS helper, in contrast, decodes every buffer of at least 8 bytes. -/
theorem C18_jpss_partial (b : Build) (bs : List U8) (h : 8 ≤ bs.length) :
    decodeJpss b bs = .ret (.ok ⟨.utc, cdsInstant (field bs 0 16) (field bs 16 32) (field bs 48 16)⟩) :=
  (C14_decode b 2 2 (by unfold CdsMicros; omega) bs).2 h

/-! ## C19  `TimecodeDecoder` -/

/-- The decoder after a history of `register` calls. -/
def registerAll (default : Format) (calls : List (Format × List U16)) : TimecodeDecoder :=
  calls.foldl (fun d c => d.register c.1 c.2) (TimecodeDecoder.new default)

/-- The format of the most recent call that names the APID, else the default. -/
def formatFor (default : Format) (calls : List (Format × List U16)) (apid : U16) : Format :=
  match calls.reverse.find? (fun c => c.2.contains apid) with
  | some c => c.1
  | none => default

theorem register_get? (d : TimecodeDecoder) (f : Format) (apids : List U16) (a : U16) :
    (d.register f apids).formats.get? a = if apids.contains a then some f else d.formats.get? a := by
  unfold TimecodeDecoder.register
  simp only
  generalize d.formats = m
  induction apids generalizing m with
  | nil => simp
  | cons x xs ih =>
    simp only [List.foldl_cons, ih, HMap.get?_insert, List.contains_cons]
    by_cases h1 : xs.contains a
    · simp only [h1, Bool.or_true, if_true]
    · by_cases h2 : x = a
      · subst h2; simp
      · have : (a == x) = false := by simpa using Ne.symm h2
        simp only [h1, h2, this, Bool.false_or, if_false, Bool.false_eq_true]

/-- `decode` uses the format most recently registered for the packet's APID, else the default; it panics exactly on packets
whose data are shorter than a header (or when `timecode::decode` itself does, C16). -/
theorem C19_decode (b : Build) (default : Format) (calls : List (Format × List U16)) (p : Packet) :
    (registerAll default calls).decode b p =
      if p.data.length < 6 then .panic else Timecode.decode b (formatFor default calls p.header.apid) (p.data.drop 6) := by
  have hdef : ∀ (calls : List (Format × List U16)) (d : TimecodeDecoder),
      (calls.foldl (fun d c => d.register c.1 c.2) d).default = d.default := by
    intro calls
    induction calls with
    | nil => intro d; rfl
    | cons c calls ih => intro d; rw [List.foldl_cons, ih]; rfl
  have hget : ∀ (calls : List (Format × List U16)) (d : TimecodeDecoder),
      (calls.foldl (fun d c => d.register c.1 c.2) d).formats.get? p.header.apid =
        match calls.reverse.find? (fun c => c.2.contains p.header.apid) with
        | some c => some c.1
        | none => d.formats.get? p.header.apid := by
    intro calls
    induction calls with
    | nil => intro d; rfl
    | cons c calls ih =>
      intro d
      rw [List.foldl_cons, ih, List.reverse_cons, List.find?_append]
      cases hfind : calls.reverse.find? (fun c => c.2.contains p.header.apid) with
      | some x => simp
      | none =>
        simp only [Option.none_or]
        rw [register_get?]
        by_cases hc : c.2.contains p.header.apid
        · simp only [List.find?, hc, if_true]
        · simp only [List.find?, hc, Bool.false_eq_true, if_false]
  unfold TimecodeDecoder.decode registerAll
  rw [hget, hdef]
  simp only [PrimaryHeader.LEN, formatFor]
  cases calls.reverse.find? (fun c => c.2.contains p.header.apid) <;> rfl

/-- Registering APID 5 twice: the second format wins; other APIDs use the default. -/
example : formatFor (.cds 2 0) [(.cds 2 2, [5, 6]), (.cds 3 2, [5])] 5 = .cds 3 2 ∧
    formatFor (.cds 2 0) [(.cds 2 2, [5, 6]), (.cds 3 2, [5])] 6 = .cds 2 2 ∧
    formatFor (.cds 2 0) [(.cds 2 2, [5, 6]), (.cds 3 2, [5])] 7 = .cds 2 0 := by decide +kernel

end Ccsds
