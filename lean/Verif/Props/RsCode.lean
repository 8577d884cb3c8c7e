import Verif.Spec.RsCode
import Verif.Props.ReedSolomon
import Mathlib.FieldTheory.Finite.GaloisField
/-!
# C71: the Reed–Solomon code (255, 223)
-/
namespace Ccsds
open Spec RS

variable {F : Type} [Field F]

theorem getD_lt {l : List U8} {i : Nat} (h : i < l.length) : l.getD i 0 = l[i] := by
  rw [List.getD_eq_getElem?_getD, List.getElem?_eq_getElem h]; rfl

theorem dist_eq_card (c c' : List U8) (h : c.length = 255) (h' : c'.length = 255) :
    dist c c' = ((Finset.range 255).filter fun i => c.getD i 0 ≠ c'.getD i 0).card := by
  have : ∀ (n : Nat) (c c' : List U8), c.length = n → c'.length = n →
      dist c c' = ((Finset.range n).filter fun i => c.getD i 0 ≠ c'.getD i 0).card := by
    intro n
    induction n with
    | zero =>
      intro c c' h h'
      have := List.eq_nil_of_length_eq_zero h
      subst this
      simp [dist]
    | succ n ih =>
      intro c c' h h'
      match c, c', h, h' with
      | x :: c, y :: c', h, h' =>
        have := ih c c' (by simpa using h) (by simpa using h')
        unfold dist at this ⊢
        rw [List.zipWith_cons_cons, List.sum_cons, this, Finset.card_filter, Finset.card_filter, Finset.sum_range_succ', Nat.add_comm]
        congr 1
        by_cases hxy : x = y <;> simp [hxy]
  exact this 255 c c' h h'

theorem pow_inj {β : F} (hβ : orderOf β = 255) {i j : Nat} (hi : i < 255) (hj : j < 255) (h : β ^ (254 - i) = β ^ (254 - j)) : i = j := by
  have := pow_injOn_Iio_orderOf (x := β) (by simp [hβ]; omega) (by simp [hβ]; omega) h
  omega

/-- Different words whose polynomials agree at `d` consecutive powers of `β` differ in more than `d` bytes. -/
theorem agree_distance (e : U8 ≃ F) (β : F) (hβ : orderOf β = 255) (b d : Nat) (c c' : List U8) (hl : c.length = 255) (hl' : c'.length = 255)
    (ha : ∀ j, j < d → evalWord e c (β ^ (b + j)) = evalWord e c' (β ^ (b + j))) (hne : c ≠ c') : d < dist c c' := by
  by_contra hlt
  rw [dist_eq_card c c' hl hl'] at hlt
  set D := (Finset.range 255).filter fun i => c.getD i 0 ≠ c'.getD i 0 with hD
  have hβ0 : β ≠ 0 := by
    rintro rfl
    simp at hβ
  let f : Fin D.card → Nat := D.orderEmbOfFin rfl
  have hf : ∀ j, f j ∈ D := fun j => D.orderEmbOfFin_mem rfl j
  have hfr : ∀ j, f j < 255 := fun j => by have := hf j; rw [hD, Finset.mem_filter, Finset.mem_range] at this; exact this.1
  have hpts : Function.Injective fun j => β ^ (254 - f j) := by
    intro i j h
    exact (D.orderEmbOfFin rfl).injective (pow_inj hβ (hfr i) (hfr j) h)
  have hz := Matrix.eq_zero_of_forall_pow_sum_mul_pow_eq_zero (f := fun j => β ^ (254 - f j))
    (v := fun j => (e (c.getD (f j) 0) - e (c'.getD (f j) 0)) * (β ^ (254 - f j)) ^ b) hpts (by
      intro i
      have h1 := ha i (by have := i.2; omega)
      have h3 : ∑ p ∈ Finset.range 255, (e (c.getD p 0) - e (c'.getD p 0)) * (β ^ (254 - p)) ^ (b + i) = 0 := by
        unfold evalWord at h1
        rw [← sub_eq_zero, ← Finset.sum_sub_distrib] at h1
        rw [← h1]
        refine Finset.sum_congr rfl fun p _ => ?_
        rw [sub_mul, ← pow_mul, ← pow_mul, Nat.mul_comm]
      have h4 : ∑ p ∈ D, (e (c.getD p 0) - e (c'.getD p 0)) * (β ^ (254 - p)) ^ (b + i) = 0 := by
        rw [← h3]
        refine Finset.sum_subset (Finset.filter_subset _ _) fun p hp hn => ?_
        have : c.getD p 0 = c'.getD p 0 := by
          by_contra hcc
          exact hn (Finset.mem_filter.2 ⟨hp, hcc⟩)
        rw [this, sub_self, zero_mul]
      have key : ∀ g : Nat → F, ∑ p ∈ D, g p = ∑ j, g (f j) := fun g => by
        have : ∑ p ∈ D, g p = ∑ p ∈ Finset.map (D.orderEmbOfFin rfl).toEmbedding Finset.univ, g p := by rw [Finset.map_orderEmbOfFin_univ]
        rw [this, Finset.sum_map]
        rfl
      rw [← h4, key]
      refine Finset.sum_congr rfl fun j _ => ?_
      show _ * (β ^ (254 - f j)) ^ b * (β ^ (254 - f j)) ^ i.val = _ * (β ^ (254 - f j)) ^ (b + i.val)
      rw [mul_assoc, ← pow_add])
  apply hne
  apply List.ext_getElem (by rw [hl, hl'])
  intro i h1 h2
  by_contra hcc
  have hi : i < 255 := by rw [hl] at h1; exact h1
  have hmem : i ∈ D := by
    rw [hD, Finset.mem_filter, Finset.mem_range]
    refine ⟨hi, ?_⟩
    rw [getD_lt h1, getD_lt h2]
    exact hcc
  rw [← Finset.image_orderEmbOfFin_univ D rfl, Finset.mem_image] at hmem
  obtain ⟨j, _, hj⟩ := hmem
  have hj' : f j = i := hj
  have := congrFun hz j
  simp only [hj', Pi.zero_apply, mul_eq_zero, sub_eq_zero] at this
  rcases this with h | h
  · have := e.injective h
    rw [getD_lt h1, getD_lt h2] at this
    exact hcc this
  · exact (pow_ne_zero _ (pow_ne_zero _ hβ0)) h

/-- Different code words differ in at least 33 bytes. -/
theorem rsCode_distance (e : U8 ≃ F) (β : F) (hβ : orderOf β = 255) (b : Nat) (c c' : List U8) (hc : rsCode e β b c) (hc' : rsCode e β b c') (hne : c ≠ c') :
    33 ≤ dist c c' :=
  agree_distance e β hβ b 32 c c' hc.1 hc'.1 (fun j hj => by rw [hc.2 j hj, hc'.2 j hj]) hne

/-- Every message of 223 bytes can be completed by 32 bytes to a word whose polynomial has any 32 values wanted at the powers of `β`. -/
theorem complete_word [Finite F] (e : U8 ≃ F) (β : F) (hβ : orderOf β = 255) (b : Nat) (m : List U8) (hm : m.length = 223) (s : Nat → F) :
    ∃ q, q.length = 32 ∧ ∀ j, j < 32 → evalWord e (m ++ q) (β ^ (b + j)) = s j := by
  have hβ0 : β ≠ 0 := by
    rintro rfl
    simp at hβ
  let φ : (Fin 32 → F) → (Fin 32 → F) := fun x j => ∑ i : Fin 32, x i * (β ^ (b + j.val)) ^ (31 - i.val)
  have hinj : Function.Injective φ := by
    intro x y hxy
    have hpts : Function.Injective fun i : Fin 32 => β ^ (31 - i.val) := by
      intro i j h
      have := pow_injOn_Iio_orderOf (x := β) (by simp [hβ]; omega) (by simp [hβ]; omega) h
      have := i.2
      have := j.2
      exact Fin.ext (by omega)
    have hz := Matrix.eq_zero_of_forall_pow_sum_mul_pow_eq_zero (f := fun i : Fin 32 => β ^ (31 - i.val))
      (v := fun i => (x i - y i) * (β ^ (31 - i.val)) ^ b) hpts (by
        intro j
        have h := congrFun hxy j
        simp only [φ] at h
        rw [← sub_eq_zero, ← Finset.sum_sub_distrib] at h
        rw [← h]
        refine Finset.sum_congr rfl fun i _ => ?_
        rw [mul_assoc, ← pow_add, sub_mul, ← pow_mul, ← pow_mul, Nat.mul_comm])
    funext i
    have := congrFun hz i
    simp only [Pi.zero_apply, mul_eq_zero, sub_eq_zero] at this
    rcases this with h | h
    · exact h
    · exact absurd h (pow_ne_zero _ (pow_ne_zero _ hβ0))
  obtain ⟨x, hx⟩ := Finite.surjective_of_injective hinj fun j => s j - ∑ i ∈ Finset.range 223, e (m.getD i 0) * (β ^ (b + j.val)) ^ (254 - i)
  refine ⟨(List.finRange 32).map fun i => e.symm (x i), by simp, ?_⟩
  intro j hj
  have hxj := congrFun hx ⟨j, hj⟩
  simp only [φ] at hxj
  unfold evalWord
  rw [show 255 = 223 + 32 from rfl, Finset.sum_range_add]
  have h1 : ∑ i ∈ Finset.range 223, e ((m ++ (List.finRange 32).map fun i => e.symm (x i)).getD i 0) * (β ^ (b + j)) ^ (254 - i)
      = ∑ i ∈ Finset.range 223, e (m.getD i 0) * (β ^ (b + j)) ^ (254 - i) := by
    refine Finset.sum_congr rfl fun i hi => ?_
    rw [Finset.mem_range] at hi
    rw [List.getD_eq_getElem?_getD, List.getD_eq_getElem?_getD, List.getElem?_append_left (by omega)]
  have h2 : ∑ i ∈ Finset.range 32, e ((m ++ (List.finRange 32).map fun i => e.symm (x i)).getD (223 + i) 0) * (β ^ (b + j)) ^ (254 - (223 + i))
      = ∑ i : Fin 32, x i * (β ^ (b + j)) ^ (31 - i.val) := by
    rw [Finset.sum_range]
    refine Finset.sum_congr rfl fun i _ => ?_
    rw [List.getD_eq_getElem?_getD, List.getElem?_append_right (by omega), hm, Nat.add_sub_cancel_left]
    rw [show 254 - (223 + i.val) = 31 - i.val by omega]
    simp
  rw [h1, h2, hxj]
  simp

/-- Every message of 223 bytes can be completed by 32 parity bytes to a code word. -/
theorem rsCode_encode [Finite F] (e : U8 ≃ F) (β : F) (hβ : orderOf β = 255) (b : Nat) (m : List U8) (hm : m.length = 223) :
    ∃ q, q.length = 32 ∧ rsCode e β b (m ++ q) := by
  obtain ⟨q, hq, h⟩ := complete_word e β hβ b m hm fun _ => 0
  exact ⟨q, hq, by simp [hm, hq], h⟩

/-- A bounded-distance decoder for the Reed–Solomon code exists: what is assumed of `rs2` can be met. -/
theorem C71_decoder (e : U8 ≃ F) (β : F) (hβ : orderOf β = 255) (b : Nat) : Bounded (bddCodec (rsCode e β b)) (rsCode e β b) :=
  bddCodec_bounded _ (fun _ h => h.1) (rsCode_distance e β hβ b)

/-- There is a field with 256 elements, represented by bytes (the zero byte being zero), with an element of order 255. -/
theorem C71_field : ∃ (F : Type) (_ : Field F) (_ : Finite F) (e : U8 ≃ F) (β : F), e 0 = 0 ∧ orderOf β = 255 := by
  have : Fact (Nat.Prime 2) := ⟨Nat.prime_two⟩
  have : Fintype (GaloisField 2 8) := Fintype.ofFinite _
  have hcard : Fintype.card (GaloisField 2 8) = 2 ^ 8 := by
    rw [← Nat.card_eq_fintype_card, GaloisField.card 2 8 (by decide)]
  have e0 : U8 ≃ Fin (2 ^ 8) := { toFun := BitVec.toFin, invFun := BitVec.ofFin, left_inv := fun _ => rfl, right_inv := fun _ => rfl }
  have e1 : U8 ≃ GaloisField 2 8 := e0.trans (Fintype.equivFinOfCardEq hcard).symm
  classical
  let e : U8 ≃ GaloisField 2 8 := e1.trans (Equiv.swap (e1 0) 0)
  obtain ⟨g, hg⟩ := IsCyclic.exists_generator (α := (GaloisField 2 8)ˣ)
  refine ⟨GaloisField 2 8, inferInstance, inferInstance, e, g, by simp [e], ?_⟩
  rw [orderOf_units, orderOf_eq_card_of_forall_mem_zpowers hg, Nat.card_eq_fintype_card, Fintype.card_units, hcard]
  rfl

theorem codeword_getD (I : Nat) (block : List U8) (i p : Nat) (hp : p < 255) : (codeword I block i).getD p 0 = block.getD (p * I + i) 0 := by
  rw [getD_lt (by simpa [codeword] using hp)]
  simp [codeword]

/-- Systematic encoding: for every payload there is exactly one block that begins with it and whose `I` interleaved words (after the virtual fill of `vf` zero
bytes) are code words. -/
theorem C71_encode [Finite F] (e : U8 ≃ F) (β : F) (hβ : orderOf β = 255) (b I vf : Nat) (payload : List U8) (hI : 0 < I) (hlen : vf + payload.length = 223 * I) :
    ∃! tx : List U8, vf + tx.length = 255 * I ∧ payload <+: tx ∧ ∀ i, i < I → rsCode e β b (codeword I (List.replicate vf 0#8 ++ tx) i) := by
  generalize hpre : List.replicate vf (0#8) = pre
  have hprel : pre.length = vf := by rw [← hpre]; simp
  have hmsg : ∀ i, ∃ q : List U8, q.length = 32 ∧ rsCode e β b ((List.range 223).map (fun p => (pre ++ payload).getD (p * I + i) 0) ++ q) :=
    fun i => rsCode_encode e β hβ b _ (by simp)
  choose par hp1 hp2 using hmsg
  have key : ∀ tx tx' : List U8, vf + tx.length = 255 * I → vf + tx'.length = 255 * I → payload <+: tx → payload <+: tx' →
      (∀ i, i < I → rsCode e β b (codeword I (pre ++ tx) i)) → (∀ i, i < I → rsCode e β b (codeword I (pre ++ tx') i)) → tx = tx' := by
    rintro tx tx' l1 l2 ⟨u, rfl⟩ ⟨u', rfl⟩ c1 c2
    have heq : ∀ i, i < I → codeword I (pre ++ (payload ++ u)) i = codeword I (pre ++ (payload ++ u')) i := by
      intro i hi
      by_contra hne
      have h33 := rsCode_distance e β hβ b _ _ (c1 i hi) (c2 i hi) hne
      rw [dist_eq_card _ _ (codeword_length ..) (codeword_length ..)] at h33
      have hsub : ((Finset.range 255).filter fun p => (codeword I (pre ++ (payload ++ u)) i).getD p 0 ≠ (codeword I (pre ++ (payload ++ u')) i).getD p 0) ⊆
          Finset.Ico 223 255 := by
        intro p hp
        rw [Finset.mem_filter, Finset.mem_range] at hp
        rw [Finset.mem_Ico]
        refine ⟨?_, hp.1⟩
        by_contra hlt
        apply hp.2
        rw [codeword_getD _ _ _ _ hp.1, codeword_getD _ _ _ _ hp.1]
        have hi' : p * I + i < 223 * I := by
          have := Nat.mul_le_mul_right I (show p + 1 ≤ 223 by omega)
          rw [Nat.add_mul] at this; omega
        rw [← List.append_assoc, ← List.append_assoc, List.getD_eq_getElem?_getD, List.getD_eq_getElem?_getD,
          List.getElem?_append_left (l₁ := pre ++ payload) (by simp; omega), List.getElem?_append_left (l₁ := pre ++ payload) (by simp; omega)]
      have := Finset.card_le_card hsub
      rw [Nat.card_Ico] at this
      omega
    have : pre ++ (payload ++ u) = pre ++ (payload ++ u') := by
      apply List.ext_getElem (by simp at l1 l2 ⊢; omega)
      intro q h1 h2
      have hq : q < 255 * I := by simp at l1 h1; omega
      have hm := Nat.mod_lt q hI
      have hd : q / I < 255 := Nat.div_lt_of_lt_mul (by rw [Nat.mul_comm]; exact hq)
      have h := congrArg (fun l => l.getD (q / I) 0) (heq (q % I) hm)
      simp only [codeword_getD _ _ _ _ hd, Nat.div_add_mod'] at h
      rwa [getD_lt h1, getD_lt h2] at h
    exact List.append_cancel_left this
  have hcode : ∀ i, i < I → rsCode e β b (codeword I (pre ++ (payload ++ (List.range (32 * I)).map fun q => (par (q % I)).getD (q / I) 0)) i) := by
    intro i hi
    have hcw : codeword I (pre ++ (payload ++ (List.range (32 * I)).map fun q => (par (q % I)).getD (q / I) 0)) i
        = (List.range 223).map (fun p => (pre ++ payload).getD (p * I + i) 0) ++ par i := by
      apply List.ext_getElem
      · rw [codeword_length]; simp [hp1]
      · intro p h1 h2
        rw [codeword_length] at h1
        rw [← getD_lt, codeword_getD _ _ _ _ h1, ← List.append_assoc, List.getD_eq_getElem?_getD]
        have hl : (pre ++ payload).length = 223 * I := by simp; omega
        by_cases hp : p < 223
        · have hlt : p * I + i < 223 * I := by
            have := Nat.mul_le_mul_right I (show p + 1 ≤ 223 by omega)
            rw [Nat.add_mul] at this; omega
          rw [List.getElem?_append_left (by omega), List.getElem_append_left (by simpa using hp)]
          simp
        · have hge : 223 * I ≤ p * I + i := by
            have := Nat.mul_le_mul_right I (show 223 ≤ p by omega)
            omega
          obtain ⟨p', rfl⟩ : ∃ p', p = 223 + p' := ⟨p - 223, by omega⟩
          have hq : p' * I + i < 32 * I := by
            have := Nat.mul_le_mul_right I (show p' + 1 ≤ 32 by omega)
            rw [Nat.add_mul] at this; omega
          rw [List.getElem?_append_right (by omega), hl, show (223 + p') * I + i - 223 * I = p' * I + i by rw [Nat.add_mul]; omega,
            List.getElem_append_right (by simp)]
          simp only [List.length_map, List.length_range, Nat.add_sub_cancel_left]
          rw [List.getElem?_map, List.getElem?_range hq, Option.map_some, Option.getD_some, Nat.mul_comm p' I, Nat.mul_add_mod, Nat.mod_eq_of_lt hi, Nat.mul_add_div hI,
            Nat.div_eq_of_lt hi, Nat.add_zero, getD_lt]
    rw [hcw]
    exact hp2 i
  refine ⟨payload ++ (List.range (32 * I)).map fun q => (par (q % I)).getD (q / I) 0, ⟨?_, List.prefix_append _ _, hcode⟩, ?_⟩
  · simp; omega
  · rintro tx ⟨t1, t2, t3⟩
    refine (key _ _ ?_ ?_ t2 (List.prefix_append _ _) t3 hcode).symm ▸ rfl
    · exact t1
    · simp; omega

/-- Whatever the payload and its `I` interleaved words, if no word is received with more than 16 wrong bytes, the stage returns the payload. -/
theorem C71_recovers [Finite F] (e : U8 ≃ F) (β : F) (hβ : orderOf β = 255) (b : Nat) (k : Codec) (hk : Bounded k (rsCode e β b)) (c : Config)
    (hp : c.parityLen = 32) (hI : 0 < c.interleave.toNat) (hcor : c.correct = true) (hrem : c.removeParity = true) (payload : List U8)
    (hlen : c.virtualFill + payload.length = 223 * c.interleave.toNat) :
    ∃ tx : List U8, tx.length = payload.length + 32 * c.interleave.toNat ∧ payload <+: tx ∧
      ∀ rx : List U8, rx.length = tx.length →
        (∀ i, i < c.interleave.toNat → dist (codeword c.interleave.toNat (List.replicate c.virtualFill 0#8 ++ rx) i)
          (codeword c.interleave.toNat (List.replicate c.virtualFill 0#8 ++ tx) i) ≤ 16) →
        perform k c rx = .ret (.ok (if rx = tx then .ok else .corrected, payload)) := by
  obtain ⟨tx, ⟨t1, t2, t3⟩, _⟩ := C71_encode e β hβ b c.interleave.toNat c.virtualFill payload hI hlen
  refine ⟨tx, by omega, t2, fun rx hrx hd => ?_⟩
  rw [C39_corrects k _ hk c tx rx hp hI (by omega) (by omega) hrx t3 hd (.inl hcor), hrem, if_pos rfl]
  obtain ⟨u, rfl⟩ := t2
  have : (payload ++ u).length - 32 * c.interleave.toNat = payload.length := by omega
  rw [this, List.take_left' rfl]

/-- The parameters of CCSDS: roots `(α ^ 11) ^ 112, …, (α ^ 11) ^ 143` for `α` of order 255. -/
theorem C71_ccsds (e : U8 ≃ F) (α : F) (hα : orderOf α = 255) :
    (∀ c c', rsCode e (α ^ 11) 112 c → rsCode e (α ^ 11) 112 c' → c ≠ c' → 33 ≤ dist c c') ∧
    Bounded (bddCodec (rsCode e (α ^ 11) 112)) (rsCode e (α ^ 11) 112) := by
  have hβ : orderOf (α ^ 11) = 255 := by
    rw [Nat.Coprime.orderOf_pow (by rw [hα]; decide), hα]
  exact ⟨rsCode_distance e _ hβ 112, C71_decoder e _ hβ 112⟩

/-- The hypotheses are met: there are a field, a representation and a decoder, and (depth 4, no virtual fill) every payload of 892 bytes is recovered. -/
example : ∃ (F : Type) (_ : Field F) (e : U8 ≃ F) (β : F) (k : Codec), Bounded k (rsCode e β 112) ∧ ∀ payload : List U8, payload.length = 892 →
    ∃ tx : List U8, tx.length = 1020 ∧ payload <+: tx ∧ perform k (Config.new 4) tx = .ret (.ok (.ok, payload)) := by
  obtain ⟨F, hF, hfin, e, β, _, hβ⟩ := C71_field
  refine ⟨F, hF, e, β, bddCodec (rsCode e β 112), C71_decoder e β hβ 112, fun payload hl => ?_⟩
  have h4 : (Config.new 4).interleave.toNat = 4 := by decide
  obtain ⟨tx, t1, t2, t3⟩ := C71_recovers e β hβ 112 _ (C71_decoder e β hβ 112) (Config.new 4) rfl (by rw [h4]; omega) rfl rfl payload (by
    rw [h4, hl]; rfl)
  refine ⟨tx, by rw [t1, h4, hl], t2, ?_⟩
  have := t3 tx rfl (fun i _ => by rw [dist_self]; omega)
  rwa [if_pos rfl] at this

end Ccsds
