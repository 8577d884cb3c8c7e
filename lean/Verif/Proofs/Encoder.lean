import Verif.Spec.Transmitter
import Verif.Props.CcsdsCode
/-!
# The encoder of the specification produces code words

Horner's rule throughout: `evalG x l` is the value at `x` of the polynomial with coefficients `l`, highest first.
-/
namespace Ccsds
open Spec RS

def evalG (x : Gf) (l : List Gf) : Gf := l.foldl (fun acc a => acc * x + a) 0

theorem evalG_go (x : Gf) (l : List Gf) (init : Gf) : l.foldl (fun acc a => acc * x + a) init = init * x ^ l.length + evalG x l := by
  induction l generalizing init with
  | nil => simp [evalG]
  | cons a l ih =>
    unfold evalG
    rw [List.foldl_cons, List.foldl_cons, ih, ih (0 * x + a), List.length_cons, pow_succ]
    ring

theorem evalG_cons (x a : Gf) (l : List Gf) : evalG x (a :: l) = a * x ^ l.length + evalG x l := by
  conv => lhs; unfold evalG
  rw [List.foldl_cons, evalG_go]
  ring

theorem evalG_append (x : Gf) (l m : List Gf) : evalG x (l ++ m) = evalG x l * x ^ m.length + evalG x m := by
  conv => lhs; unfold evalG
  rw [List.foldl_append, evalG_go]
  rfl

theorem evalG_smul (x c : Gf) (l : List Gf) : evalG x (l.map (c * ·)) = c * evalG x l := by
  induction l with
  | nil => simp [evalG]
  | cons a l ih => rw [List.map_cons, evalG_cons, evalG_cons, ih, List.length_map]; ring

theorem evalG_zip (x : Gf) : ∀ (l m : List Gf), l.length = m.length → evalG x (List.zipWith (· + ·) l m) = evalG x l + evalG x m
  | [], [], _ => by simp [evalG]
  | a :: l, b :: m, h => by
    have h' : l.length = m.length := by simpa using h
    rw [List.zipWith_cons_cons, evalG_cons, evalG_cons, evalG_cons, evalG_zip x l m h', List.length_zipWith, ← h', Nat.min_self]
    ring

theorem evalG_zero (x : Gf) : evalG x [0] = 0 := by simp [evalG]

theorem gf_add_self (a : Gf) : a + a = 0 := Gf.ext (BitVec.xor_self ..)

theorem evalG_timesRoot (x ρ : Gf) (g : List Gf) : evalG x (timesRoot g ρ) = (x + ρ) * evalG x g := by
  unfold timesRoot
  rw [evalG_zip _ _ _ (by simp), evalG_append, evalG_cons _ _ (g.map _), evalG_smul]
  simp only [evalG_zero, List.length_singleton, pow_one, zero_mul, zero_add, add_zero]
  ring

/-- The value of a product of linear factors. -/
theorem evalG_roots (x : Gf) (ρ : Nat → Gf) (js : List Nat) (g : List Gf) :
    evalG x (js.foldl (fun g j => timesRoot g (ρ j)) g) = (js.map fun j => x + ρ j).prod * evalG x g := by
  induction js generalizing g with
  | nil => simp
  | cons j js ih => rw [List.foldl_cons, ih, evalG_timesRoot, List.map_cons, List.prod_cons]; ring

theorem timesRoot_length (g : List Gf) (ρ : Gf) : (timesRoot g ρ).length = g.length + 1 := by simp [timesRoot]

theorem generator_root (j : Nat) (hj : j < 32) : evalG ((Gf.α ^ 11) ^ (112 + j)) generator = 0 := by
  unfold generator
  rw [evalG_roots _ (fun j => (Gf.α ^ 11) ^ (112 + j))]
  have : (0 : Gf) ∈ (List.range 32).map fun i => (Gf.α ^ 11) ^ (112 + j) + (Gf.α ^ 11) ^ (112 + i) :=
    List.mem_map.2 ⟨j, List.mem_range.2 hj, gf_add_self _⟩
  rw [List.prod_eq_zero this, zero_mul]

theorem generator_cons : ∃ g, generator = 1 :: g ∧ g.length = 32 := by
  have hfold : ∀ (js : List Nat) (ρ : Nat → Gf) (g : List Gf), ∃ g', js.foldl (fun g j => timesRoot g (ρ j)) (1 :: g) = 1 :: g' ∧ g'.length = g.length + js.length := by
    intro js ρ
    induction js with
    | nil => intro g; exact ⟨g, rfl, by simp⟩
    | cons j js ih =>
      intro g
      rw [List.foldl_cons]
      have e : ∃ g1, timesRoot (1 :: g) (ρ j) = 1 :: g1 ∧ g1.length = g.length + 1 := by
        refine ⟨(timesRoot (1 :: g) (ρ j)).tail, ?_, by rw [List.length_tail, timesRoot_length]; simp⟩
        unfold timesRoot
        rw [List.cons_append, List.zipWith_cons_cons, add_zero]
        rfl
      obtain ⟨g1, e1, e2⟩ := e
      rw [e1]
      obtain ⟨g', a, c⟩ := ih g1
      exact ⟨g', a, by rw [c, e2, List.length_cons]; omega⟩
  obtain ⟨g, h1, h2⟩ := hfold (List.range 32) (fun j => (Gf.α ^ 11) ^ (112 + j)) []
  exact ⟨g, h1, by simpa using h2⟩

theorem generator_tail (ρ : Gf) (h : evalG ρ generator = 0) : evalG ρ generator.tail = ρ ^ 32 ∧ generator.tail.length = 32 := by
  obtain ⟨g, e, hl⟩ := generator_cons
  rw [e] at h ⊢
  rw [evalG_cons, hl, one_mul] at h
  refine ⟨?_, hl⟩
  rw [List.tail_cons]
  have := congrArg (ρ ^ 32 + ·) h
  simp only [← add_assoc, gf_add_self, zero_add, add_zero] at this
  exact this

theorem divStep_length (r : List Gf) (m : Gf) (hr : r.length = 32) : (divStep r m).length = 32 := by
  obtain ⟨g, e, hl⟩ := generator_cons
  simp [divStep, e, hl, hr]

theorem divStep_eval (ρ : Gf) (h : evalG ρ generator = 0) (r : List Gf) (m : Gf) (hr : r.length = 32) :
    evalG ρ (divStep r m) = evalG ρ r * ρ + m * ρ ^ 32 := by
  obtain ⟨h1, h2⟩ := generator_tail ρ h
  match r with
  | a :: l =>
    have hl : l.length = 31 := by simpa using hr
    unfold divStep
    rw [evalG_zip _ _ _ (by rw [List.length_map, h2]; simp [hl]), evalG_append, evalG_smul, h1, evalG_cons _ a l, hl]
    simp only [List.tail_cons, List.headD_cons, List.length_singleton, pow_one, evalG_zero, add_zero]
    rw [show (ρ ^ 32 : Gf) = ρ ^ 31 * ρ from pow_succ ..]
    ring

theorem division_length (ms r : List Gf) (hr : r.length = 32) : (ms.foldl divStep r).length = 32 := by
  induction ms generalizing r with
  | nil => exact hr
  | cons m ms ih => exact ih _ (divStep_length r m hr)

theorem division_eval (ρ : Gf) (h : evalG ρ generator = 0) (ms r : List Gf) (hr : r.length = 32) :
    evalG ρ (ms.foldl divStep r) = evalG ρ r * ρ ^ ms.length + evalG ρ ms * ρ ^ 32 := by
  induction ms generalizing r with
  | nil => simp [evalG]
  | cons m ms ih =>
    rw [List.foldl_cons, ih _ (divStep_length r m hr), divStep_eval ρ h r m hr, evalG_cons, List.length_cons, pow_succ]
    ring

theorem evalG_zeros (ρ : Gf) (n : Nat) : evalG ρ (List.replicate n 0) = 0 := by
  induction n with
  | zero => rfl
  | succ n ih => rw [List.replicate_succ, evalG_cons, ih]; simp

theorem horner_map (x : Gf) (c : List U8) : horner x c = evalG x (c.map dualBasis) := by
  unfold horner evalG
  rw [List.foldl_map]

theorem rsParity_length (m : List U8) : (rsParity m).length = 32 := by
  unfold rsParity
  rw [List.length_map, division_length _ _ (by simp)]

/-- A message with its check symbols is a code word. -/
theorem rsParity_code (m : List U8) (hm : m.length = 223) : ccsdsCode (m ++ rsParity m) := by
  rw [ccsdsCode_iff]
  refine ⟨by rw [List.length_append, hm, rsParity_length], fun j hj => ?_⟩
  have hroot := generator_root j hj
  generalize (Gf.α ^ 11) ^ (112 + j) = ρ at hroot ⊢
  have hp : (rsParity m).map dualBasis = (m.map dualBasis).foldl divStep (List.replicate 32 0) := by
    unfold rsParity
    rw [List.map_map]
    simp
  rw [horner_map, List.map_append, evalG_append, hp, division_length _ _ (by simp), division_eval ρ hroot _ _ (by simp), evalG_zeros, zero_mul, zero_add, gf_add_self]

/-- The check symbols are the only ones that make a code word. -/
theorem rsParity_unique (m u : List U8) (hm : m.length = 223) (h : ccsdsCode (m ++ u)) : u = rsParity m := by
  have hl : u.length = 32 := by
    have := h.1
    rw [List.length_append, hm] at this; omega
  by_contra hne
  have hne' : m ++ u ≠ m ++ rsParity m := fun e => hne (List.append_cancel_left e)
  have h1 := C113_distance.1 _ _ h (rsParity_code m hm) hne'
  have h2 : dist (m ++ u) (m ++ rsParity m) ≤ 32 := by
    unfold dist
    rw [List.zipWith_append rfl, List.sum_append]
    have e0 : (List.zipWith (fun x y : U8 => if x = y then 0 else 1) m m).sum = 0 := dist_self m
    rw [e0, zero_add]
    have : ∀ (a b : List U8), (List.zipWith (fun x y : U8 => if x = y then 0 else 1) a b).sum ≤ a.length := by
      intro a
      induction a with
      | nil => intro b; simp
      | cons x a ih =>
        intro b
        cases b with
        | nil => simp
        | cons y b =>
          rw [List.zipWith_cons_cons, List.sum_cons, List.length_cons]
          have := ih b
          split <;> omega
    exact Nat.le_trans (this _ _) (by omega)
  omega

/-- The encoder agrees with the check symbols in the crate's own test vector. -/
theorem rsParity_fixture : rsParity (UnitTests.fixtureMsg.take 223) = UnitTests.fixtureMsg.drop 223 := by decide +kernel

/-- Word `i` of a frame followed by the `I` interleaved lists `par 0, par 1, …` is a message followed by `par i`. -/
theorem interleaved_codeword (I vf : Nat) (frame : List U8) (par : Nat → List U8) (hlen : vf + frame.length = 223 * I) (i : Nat) (hi : i < I) (hpl : (par i).length = 32) :
    codeword I (List.replicate vf 0#8 ++ (frame ++ (List.range (32 * I)).map fun j => (par (j % I)).getD (j / I) 0)) i =
      messageOf I (List.replicate vf 0#8 ++ frame) i ++ par i := by
  rw [← List.append_assoc]
  generalize hb : List.replicate vf 0#8 ++ frame = b
  have hbl : b.length = 223 * I := by rw [← hb]; simpa using hlen
  have hml : (messageOf I b i).length = 223 := by simp [messageOf]
  apply List.ext_getElem?
  intro p
  by_cases hp : p < 255
  · rw [codeword_getElem? _ _ _ _ hp]
    by_cases h : p < 223
    · have : p * I + i < b.length := by
        rw [hbl]
        calc p * I + i < p * I + I := by omega
          _ = (p + 1) * I := by ring
          _ ≤ 223 * I := Nat.mul_le_mul_right _ (by omega)
      rw [List.getElem?_append_left (by omega), List.getD_eq_getElem?_getD, List.getElem?_append_left this, ← List.getD_eq_getElem?_getD]
      simp [messageOf, h]
    · obtain ⟨q, rfl⟩ : ∃ q, p = 223 + q := ⟨p - 223, by omega⟩
      have hge : b.length ≤ (223 + q) * I + i := by rw [hbl, Nat.add_mul]; omega
      have e : (223 + q) * I + i - b.length = q * I + i := by rw [hbl, Nat.add_mul]; omega
      have hq : q * I + i < 32 * I := by
        calc q * I + i < q * I + I := by omega
          _ = (q + 1) * I := by ring
          _ ≤ 32 * I := Nat.mul_le_mul_right _ (by omega)
      have hmod : (q * I + i) % I = i := by rw [Nat.add_comm, Nat.add_mul_mod_self_right, Nat.mod_eq_of_lt hi]
      have hdiv : (q * I + i) / I = q := by
        rw [Nat.add_comm, Nat.add_mul_div_right _ _ (by omega), Nat.div_eq_of_lt hi, Nat.zero_add]
      rw [List.getElem?_append_right (by omega), hml, Nat.add_sub_cancel_left, List.getD_eq_getElem?_getD, List.getElem?_append_right hge, ← List.getD_eq_getElem?_getD, e, List.getElem?_eq_getElem (by omega)]
      rw [List.getD_eq_getElem?_getD, List.getElem?_map, List.getElem?_range hq, Option.map_some, Option.getD_some, hmod, hdiv]
      rw [List.getD_eq_getElem?_getD, List.getElem?_eq_getElem (by omega)]
      rfl
  · rw [List.getElem?_eq_none (by rw [codeword_length]; omega), List.getElem?_eq_none (by rw [List.length_append, hml, hpl]; omega)]

/-- Word `i` of an encoded block is a message with its check symbols. -/
theorem encoded_codeword (I vf : Nat) (frame : List U8) (hlen : vf + frame.length = 223 * I) (i : Nat) (hi : i < I) :
    codeword I (List.replicate vf 0#8 ++ (frame ++ checkSymbols I vf frame)) i =
      messageOf I (List.replicate vf 0#8 ++ frame) i ++ rsParity (messageOf I (List.replicate vf 0#8 ++ frame) i) :=
  interleaved_codeword I vf frame (fun i => rsParity (messageOf I (List.replicate vf 0#8 ++ frame) i)) hlen i hi (rsParity_length _)

end Ccsds
