import Verif.Spec.Gf256
import Verif.Props.RsCode
import Verif.UnitTests
import Mathlib.GroupTheory.OrderOfElement
import Mathlib.Tactic.NormNum.Prime
/-!
# C113  Reed–Solomon with the code of CCSDS 131.0-B itself

`Spec.Gf256` gives the field, the byte representation and the code of the standard as concrete, computable objects. The theorems of C71, which hold for every
representation, are used for it; in addition the kernel checks that the words the crate's tests and documentation call correct are code words.
-/
namespace Ccsds
open Spec RS

theorem alpha_order : orderOf Gf.α = 255 := by
  apply orderOf_eq_of_pow_and_pow_div_prime (by decide)
  · decide +kernel
  · intro p hp hd
    have : p ∈ Nat.primeFactors 255 := by simp [hp, hd]
    have h255 : Nat.primeFactors 255 = {3, 5, 17} := by
      rw [show 255 = 3 * 5 * 17 by norm_num, Nat.primeFactors_mul (by norm_num) (by norm_num), Nat.primeFactors_mul (by norm_num) (by norm_num),
        Nat.Prime.primeFactors Nat.prime_three, Nat.Prime.primeFactors Nat.prime_five, Nat.Prime.primeFactors (by norm_num)]
      rfl
    rw [h255] at this
    simp only [Finset.mem_insert, Finset.mem_singleton] at this
    rcases this with rfl | rfl | rfl <;> decide +kernel

/-- Horner's rule. -/
def horner (x : Gf) (c : List U8) : Gf := c.foldl (fun acc b => acc * x + dualBasis b) 0

theorem horner_go (x : Gf) : ∀ (c : List U8) (init : Gf), c.foldl (fun acc b => acc * x + dualBasis b) init =
    init * x ^ c.length + ∑ i ∈ Finset.range c.length, dualBasis (c.getD i 0) * x ^ (c.length - 1 - i) := by
  intro c
  induction c with
  | nil => intro init; simp
  | cons b c ih =>
    intro init
    rw [List.foldl_cons, ih, List.length_cons, Finset.sum_range_succ', pow_succ]
    simp only [List.getD_cons_succ, List.getD_cons_zero, Nat.add_sub_cancel, Nat.sub_zero]
    have : ∀ i ∈ Finset.range c.length, dualBasis (c.getD i 0) * x ^ (c.length - 1 - i) = dualBasis (c.getD i 0) * x ^ (c.length - (i + 1)) := by
      intro i hi; rw [Nat.sub_sub, Nat.add_comm 1 i]
    rw [Finset.sum_congr rfl this]
    ring

theorem horner_eq (x : Gf) (c : List U8) (h : c.length = 255) : evalWord dualBasis c x = horner x c := by
  unfold horner
  rw [horner_go, h]
  simp [evalWord]

theorem beta_order : orderOf (Gf.α ^ 11) = 255 := by
  rw [Nat.Coprime.orderOf_pow (by rw [alpha_order]; decide), alpha_order]

theorem ccsdsCode_iff (c : List U8) : ccsdsCode c ↔ c.length = 255 ∧ ∀ j, j < 32 → horner ((Gf.α ^ 11) ^ (112 + j)) c = 0 := by
  unfold ccsdsCode rsCode
  refine and_congr_right fun h => forall₂_congr fun j _ => ?_
  rw [horner_eq _ _ h]

instance (c : List U8) : Decidable (ccsdsCode c) := decidable_of_iff' _ (ccsdsCode_iff c)

theorem fixture_length : UnitTests.fixtureMsg.length = 255 := by decide +kernel

/-! ## The code -/

/-- Different code words of the standard's code differ in at least 33 bytes, and it has a bounded-distance decoder: what is assumed of `rs2` can be met. -/
theorem C113_distance :
    (∀ c c', ccsdsCode c → ccsdsCode c' → c ≠ c' → 33 ≤ dist c c') ∧ Bounded (bddCodec ccsdsCode) ccsdsCode :=
  C71_ccsds dualBasis Gf.α alpha_order

theorem dualBasis_xor (a b : U8) : dualBasis (a ^^^ b) = dualBasis a + dualBasis b := by
  have h : ∀ i, (a ^^^ b).getMsbD i = (a.getMsbD i ^^ b.getMsbD i) := fun i => BitVec.getMsbD_xor
  apply Gf.ext
  change rowTimes dualMatrix (a ^^^ b) = rowTimes dualMatrix a ^^^ rowTimes dualMatrix b
  have hr : ∀ v, rowTimes dualMatrix v = (if v.getMsbD 0 then dualMatrix.getD 0 0 else 0) ^^^ (if v.getMsbD 1 then dualMatrix.getD 1 0 else 0) ^^^
      (if v.getMsbD 2 then dualMatrix.getD 2 0 else 0) ^^^ (if v.getMsbD 3 then dualMatrix.getD 3 0 else 0) ^^^ (if v.getMsbD 4 then dualMatrix.getD 4 0 else 0) ^^^
      (if v.getMsbD 5 then dualMatrix.getD 5 0 else 0) ^^^ (if v.getMsbD 6 then dualMatrix.getD 6 0 else 0) ^^^ (if v.getMsbD 7 then dualMatrix.getD 7 0 else 0) := by
    decide +kernel
  have hx : ∀ (x y : Bool) (m : U8), (if (x ^^ y) = true then m else 0) = (if x = true then m else 0) ^^^ (if y = true then m else 0) := by
    intro x y m; cases x <;> cases y <;> simp
  rw [hr, hr, hr]
  simp only [h, hx]
  ac_rfl

/-- The code is linear: the bytewise exclusive or of two code words is a code word. -/
theorem C113_linear (c c' : List U8) (h : ccsdsCode c) (h' : ccsdsCode c') : ccsdsCode (List.zipWith (· ^^^ ·) c c') := by
  refine ⟨by rw [List.length_zipWith, h.1, h'.1]; rfl, fun j hj => ?_⟩
  have : evalWord dualBasis (List.zipWith (· ^^^ ·) c c') ((Gf.α ^ 11) ^ (112 + j)) =
      evalWord dualBasis c ((Gf.α ^ 11) ^ (112 + j)) + evalWord dualBasis c' ((Gf.α ^ 11) ^ (112 + j)) := by
    unfold evalWord
    rw [← Finset.sum_add_distrib]
    refine Finset.sum_congr rfl fun i hi => ?_
    rw [Finset.mem_range] at hi
    have h1 : i < c.length := by rw [h.1]; exact hi
    have h2 : i < c'.length := by rw [h'.1]; exact hi
    rw [getD_lt h1, getD_lt h2, getD_lt (by rw [List.length_zipWith]; omega), List.getElem_zipWith, dualBasis_xor, add_mul]
  rw [this, h.2 j hj, h'.2 j hj, add_zero]

/-- Every constant word is a code word: `1 + x + … + x^254` vanishes at every element of order 255 or a divisor of it other than 1. -/
theorem C113_constant (v : U8) : ccsdsCode (List.replicate 255 v) := by
  refine ⟨List.length_replicate, fun j hj => ?_⟩
  generalize hx : (Gf.α ^ 11) ^ (112 + j) = x
  have h1 : x ≠ 1 := by
    rw [← hx]
    intro h
    have := orderOf_dvd_of_pow_eq_one h
    rw [beta_order] at this
    omega
  have h255 : x ^ 255 = 1 := by
    rw [← hx, ← pow_mul, Nat.mul_comm, pow_mul, ← beta_order, pow_orderOf_eq_one, one_pow]
  unfold evalWord
  have : ∀ i ∈ Finset.range 255, dualBasis ((List.replicate 255 v).getD i 0) * x ^ (254 - i) = dualBasis v * x ^ (255 - 1 - i) := by
    intro i hi
    rw [Finset.mem_range] at hi
    rw [getD_lt (by rw [List.length_replicate]; exact hi), List.getElem_replicate]
  rw [Finset.sum_congr rfl this, ← Finset.mul_sum, Finset.sum_range_reflect (fun i => x ^ i) 255]
  have hg := geom_sum_mul x 255
  rw [h255, sub_self] at hg
  rcases mul_eq_zero.1 hg with h | h
  · rw [h, mul_zero]
  · exact absurd (sub_eq_zero.1 h) h1

set_option maxRecDepth 100000 in
/-- The message of the crate's Reed–Solomon tests (reed_solomon.rs:237-255) is a word of the standard's code. -/
theorem C113_fixture : ccsdsCode UnitTests.fixtureMsg := by decide +kernel

/-- In the conventional representation (a byte is its own coordinates) it is not: the tests do tell the representations apart. -/
theorem C113_not_conventional : evalWord (F := Gf) ⟨Gf.mk, Gf.coordinates, fun _ => rfl, fun _ => rfl⟩ UnitTests.fixtureMsg ((Gf.α ^ 11) ^ 112) ≠ 0 := by
  have h : ∀ (x : Gf) (c : List U8) (init : Gf), c.foldl (fun acc b => acc * x + ⟨b⟩) init =
      init * x ^ c.length + ∑ i ∈ Finset.range c.length, (⟨c.getD i 0⟩ : Gf) * x ^ (c.length - 1 - i) := by
    intro x c
    induction c with
    | nil => intro init; simp
    | cons b c ih =>
      intro init
      rw [List.foldl_cons, ih, List.length_cons, Finset.sum_range_succ', pow_succ]
      simp only [List.getD_cons_succ, List.getD_cons_zero, Nat.add_sub_cancel, Nat.sub_zero]
      have : ∀ i ∈ Finset.range c.length, (⟨c.getD i 0⟩ : Gf) * x ^ (c.length - 1 - i) = (⟨c.getD i 0⟩ : Gf) * x ^ (c.length - (i + 1)) := by
        intro i hi; rw [Nat.sub_sub, Nat.add_comm 1 i]
      rw [Finset.sum_congr rfl this]
      ring
  have h' := h ((Gf.α ^ 11) ^ 112) UnitTests.fixtureMsg 0
  have hl := fixture_length
  rw [hl, zero_mul, zero_add] at h'
  unfold evalWord
  change ∑ i ∈ Finset.range 255, (⟨UnitTests.fixtureMsg.getD i 0⟩ : Gf) * ((Gf.α ^ 11) ^ 112) ^ (255 - 1 - i) ≠ 0
  rw [← h']
  decide +kernel

/-! ## The stage -/

/-- Whatever the payload, if no word is received with more than 16 wrong bytes, the stage returns it (C71 for the standard's code). -/
theorem C113_recovers (k : Codec) (hk : Bounded k ccsdsCode) (c : Config) (hp : c.parityLen = 32) (hI : 0 < c.interleave.toNat) (hcor : c.correct = true)
    (hrem : c.removeParity = true) (payload : List U8) (hlen : c.virtualFill + payload.length = 223 * c.interleave.toNat) :
    ∃ tx : List U8, tx.length = payload.length + 32 * c.interleave.toNat ∧ payload <+: tx ∧
      ∀ rx : List U8, rx.length = tx.length →
        (∀ i, i < c.interleave.toNat → dist (codeword c.interleave.toNat (List.replicate c.virtualFill 0#8 ++ rx) i)
          (codeword c.interleave.toNat (List.replicate c.virtualFill 0#8 ++ tx) i) ≤ 16) →
        perform k c rx = .ret (.ok (if rx = tx then .ok else .corrected, payload)) := by
  have : Finite Gf := Finite.of_injective (fun a : Gf => a.coordinates.toFin) (fun a b h => Gf.ext (BitVec.eq_of_toFin_eq h))
  exact C71_recovers dualBasis (Gf.α ^ 11) beta_order 112 k hk c hp hI hcor hrem payload hlen

/-- A block of equal bytes, whatever the byte and the interleave depth, is reported as free of errors and comes back without its last `32 * I` bytes. -/
theorem C113_constant_block (k : Codec) (hk : Bounded k ccsdsCode) (I v : U8) (hI : 0 < I.toNat) :
    perform k (Config.new I) (List.replicate (255 * I.toNat) v) = .ret (.ok (.ok, List.replicate (223 * I.toNat) v)) := by
  have hcw : ∀ i, i < I.toNat → codeword I.toNat (List.replicate (255 * I.toNat) v) i = List.replicate 255 v := by
    intro i hi
    apply List.ext_getElem
    · rw [codeword_length, List.length_replicate]
    · intro p h1 h2
      rw [List.length_replicate] at h2
      rw [← getD_lt h1, codeword_getD _ _ _ _ h2, List.getElem_replicate, getD_lt (by
        rw [List.length_replicate]
        have := Nat.mul_le_mul_right I.toNat (show p + 1 ≤ 255 by omega)
        rw [Nat.add_mul] at this; omega), List.getElem_replicate]
  have h := C39_corrects k ccsdsCode hk (Config.new I) (List.replicate (255 * I.toNat) v) (List.replicate (255 * I.toNat) v) rfl hI (Nat.zero_le _)
    (by rw [List.length_replicate]; rfl) rfl
    (fun i hi => by
      change ccsdsCode (codeword I.toNat ([] ++ List.replicate (255 * I.toNat) v) i)
      rw [List.nil_append, hcw i hi]; exact C113_constant v)
    (fun i _ => by rw [dist_self]; omega) (.inr rfl)
  rw [h, if_pos rfl]
  have e1 : (Config.new I).removeParity = true := rfl
  have e2 : (Config.new I).interleave = I := rfl
  rw [if_pos e1, e2, List.length_replicate, List.take_replicate]
  congr 4
  omega

theorem fixtureBlock_codeword (n i : Nat) (hi : i < n) : codeword n (UnitTests.fixtureBlock n) i = UnitTests.fixtureMsg := by
  have hl := fixture_length
  have key : ∀ (m : List U8) (p : Nat), p < m.length → (m.flatMap fun b => List.replicate n b).getD (p * n + i) 0 = m.getD p 0 := by
    intro m
    induction m with
    | nil => intro p hp; simp at hp
    | cons b m ih =>
      intro p hp
      rw [List.flatMap_cons, List.getD_eq_getElem?_getD]
      cases p with
      | zero =>
        rw [List.getElem?_append_left (by rw [List.length_replicate]; omega), List.getElem?_replicate, if_pos (by omega)]
        rfl
      | succ p =>
        rw [List.getElem?_append_right (by rw [List.length_replicate, Nat.add_mul]; omega), List.length_replicate,
          show (p + 1) * n + i - n = p * n + i by rw [Nat.add_mul]; omega, ← List.getD_eq_getElem?_getD, List.getD_cons_succ]
        exact ih p (by simpa using hp)
  apply List.ext_getElem
  · rw [codeword_length, hl]
  · intro p h1 h2
    rw [← getD_lt h1, ← getD_lt h2, codeword_getD _ _ _ _ (by omega)]
    exact key _ p h2

theorem fixtureBlock_length (n : Nat) : (UnitTests.fixtureBlock n).length = 255 * n := by
  have hl := fixture_length
  unfold UnitTests.fixtureBlock
  rw [List.length_flatMap, List.map_congr_left (g := fun _ => n) (fun b _ => List.length_replicate), List.map_const', hl, List.sum_replicate, smul_eq_mul]

/-- The crate's tests `test_correct_i4_1020_codeblock` and `test_correct_i5_1275_codeblock`, for every interleave depth and every position: with any decoder that meets
the contract for the standard's code, the test block comes back as `Ok`, and with one byte changed (anywhere, to anything else) as `Corrected`, both times with the
same `223 * n` bytes. -/
theorem C113_tests (k : Codec) (hk : Bounded k ccsdsCode) (n : U8) (hn : 0 < n.toNat) :
    perform k (Config.new n) (UnitTests.fixtureBlock n.toNat) = .ret (.ok (.ok, (UnitTests.fixtureBlock n.toNat).take (223 * n.toNat))) ∧
    ∀ (q : Nat) (v : U8), (UnitTests.fixtureBlock n.toNat)[q]? ≠ some v → q < 255 * n.toNat →
      perform k (Config.new n) ((UnitTests.fixtureBlock n.toNat).set q v) = .ret (.ok (.corrected, (UnitTests.fixtureBlock n.toNat).take (223 * n.toNat))) := by
  have hlen := fixtureBlock_length n.toNat
  have e1 : (Config.new n).removeParity = true := rfl
  have e2 : (Config.new n).interleave = n := rfl
  have e3 : 255 * n.toNat - 32 * n.toNat = 223 * n.toNat := by omega
  have hcode : ∀ i, i < n.toNat → ccsdsCode (codeword n.toNat (List.replicate (Config.new n).virtualFill 0#8 ++ UnitTests.fixtureBlock n.toNat) i) := by
    intro i hi
    change ccsdsCode (codeword n.toNat ([] ++ UnitTests.fixtureBlock n.toNat) i)
    rw [List.nil_append, fixtureBlock_codeword _ _ hi]
    exact C113_fixture
  generalize UnitTests.fixtureBlock n.toNat = tx at hlen hcode ⊢
  constructor
  · have h := C39_corrects k ccsdsCode hk (Config.new n) tx tx rfl hn (Nat.zero_le _) (by rw [hlen]; rfl) rfl hcode
      (fun i _ => by rw [dist_self]; omega) (.inr rfl)
    rw [h, if_pos rfl, if_pos e1, e2, hlen, e3]
  · intro q v hv hq
    have hne : tx.set q v ≠ tx := by
      intro h
      apply hv
      rw [← h, List.getElem?_set_self (by omega)]
    have h := C39_burst k ccsdsCode hk (Config.new n) tx (tx.set q v) q rfl hn (Nat.zero_le _) (by rw [hlen]; rfl) (by rw [List.length_set]) hcode
      (fun j hj => by
        have : j = q := by
          by_contra h
          exact hj (List.getElem?_set_ne (fun e => h e.symm))
        subst this
        have : 0 < (Config.new n).interleave.toNat := hn
        omega) rfl rfl
    rw [h, if_neg hne, e2, hlen, e3]

/-- The documentation example of `reed_solomon` (pipeline/reed_solomon.rs:148-157): the frame of 1020 bytes 1 comes out with integrity `Ok`. -/
theorem C113_doc_example (k : Codec) (hk : Bounded k ccsdsCode) (f : Frame) (hf : Frame.decode (List.replicate 1020 1#8) = some f) :
    job k ⟨4, 0, true, true⟩ f = .ret { f with integrity := some .ok, data := List.replicate 892 1#8 } := by
  have hd : f.data = List.replicate 1020 1#8 ∧ f.header.vcid ≠ VCDUHeader.FILL := by
    unfold Frame.decode at hf
    rw [show (1020 : Nat) = 6 + 1014 from rfl, ← List.replicate_append_replicate] at hf ⊢
    generalize List.replicate 1014 (1#8) = r at hf ⊢
    cases hf
    exact ⟨rfl, show (VCDUHeader.decodeV1 1#8 1#8 1#8 1#8).vcid ≠ VCDUHeader.FILL by decide⟩
  have h := C113_constant_block k hk 4 1 (by decide)
  have hcfg : Opts.config ⟨4, 0, true, true⟩ = Config.new 4 := rfl
  unfold job
  rw [if_pos hd.2, hcfg, hd.1]
  have h4 : (4 : U8).toNat = 4 := rfl
  rw [h4] at h
  simp only [Nat.reduceMul] at h
  change perform k (Config.new 4) (List.replicate 1020 1#8) = _ at h
  rw [h]
  rfl

/-- C40's full statement is false for the standard's code and every decoder of it. -/
theorem C40_violated_ccsds (k : Codec) (hk : Bounded k ccsdsCode) : ¬ C40_full k ccsdsCode := C40_violated k ccsdsCode hk (C113_constant 0)

/-- The hypotheses are met: there is a decoder for the standard's code, and the frame of the documentation example can be decoded. -/
example : ∃ (k : Codec) (f : Frame), Bounded k ccsdsCode ∧ Frame.decode (List.replicate 1020 1#8) = some f ∧
    job k ⟨4, 0, true, true⟩ f = .ret { f with integrity := some .ok, data := List.replicate 892 1#8 } := by
  have : ∃ f, Frame.decode (List.replicate 1020 1#8) = some f := by
    rw [show (1020 : Nat) = 6 + 1014 from rfl, ← List.replicate_append_replicate]
    generalize List.replicate 1014 (1#8) = r
    exact ⟨_, rfl⟩
  obtain ⟨f, hf⟩ := this
  exact ⟨_, f, C113_distance.2, hf, C113_doc_example _ C113_distance.2 f hf⟩

end Ccsds
