import Verif.Proofs.ReedSolomon
import Verif.Props.Frame
/-!
# C37–C41, C44, C45: Reed-Solomon block handling
-/
namespace Ccsds
open Spec RS

/-! ## C37  De-interleaving and interleaving are inverse -/

/-- Byte `j` of the block is byte `j div I` of codeword `j mod I`, and nothing else is in the codewords. -/
theorem C37_deinterleave (block : List U8) (il : U8) (hI : 0 < il.toNat) (hlen : block.length = 255 * il.toNat) :
    ∃ z, deinterleave block il = .ret z ∧ z.length = il.toNat ∧ (∀ r ∈ z, r.length = 255) ∧
      ∀ j, j < 255 * il.toNat → (z[j % il.toNat]?).bind (fun r => r[j / il.toNat]?) = block[j]? := by
  refine ⟨_, deinterleave_eq block il hI hlen, by simp, ?_, fun j hj => ?_⟩
  · intro r hr
    obtain ⟨i, _, rfl⟩ := List.mem_map.1 hr
    simp
  · have := Nat.mod_lt j hI
    simp only [List.getElem?_map, List.getElem?_range this, Option.map_some, Option.bind_some,
      codeword_getElem? _ _ _ _ (div_lt hj)]
    rw [Nat.add_comm, idx_eq, List.getD_eq_getElem?_getD, List.getElem?_eq_getElem (by omega)]; rfl

/-- The codec that reports every message as error free. -/
def idCodec : Codec := ⟨fun _ => false, fun m => (.ok, some m)⟩

/-- Splitting a block and writing the codewords back reproduces the block: with a codec that changes nothing, `perform`
(keeping the check symbols) is the identity. -/
theorem C37_inverse (c : Config) (block : List U8) (hI : 0 < c.interleave.toNat) (hp : c.parityLen = 32)
    (hr : c.removeParity = false) (hlen : block.length + c.virtualFill = 255 * c.interleave.toNat) :
    perform idCodec c block = .ret (.ok (.ok, block)) := by
  obtain ⟨num, e, hn⟩ := perform_write idCodec c block (padded c block) hI hlen (by simp [padded]; omega) (by
    intro i hi
    exact ⟨by simp [idCodec], .ok, 0, rfl, by simp, by simp, by simp⟩)
  rw [e, finish_done c block num hp hlen (by simp [hr]), if_pos (hn.2 rfl), hr]
  rfl

example : ∃ z, deinterleave (List.replicate 510 7#8) 2 = .ret z ∧ z.length = 2 := by
  obtain ⟨z, h1, h2, _⟩ := C37_deinterleave (List.replicate 510 7#8) 2 (by decide) (by simp only [List.length_replicate]; decide)
  exact ⟨z, h1, h2⟩

/-! ## C38  The length test -/

/-- `Err(IntegrityAlgorithm)` exactly for blocks of the wrong length, whatever the codec and the other options. -/
theorem C38_error_iff (k : Codec) (c : Config) (d : List U8) :
    (d.length + c.virtualFill ≠ 255 * c.interleave.toNat → perform k c d = .ret (.error .integrityAlgorithm)) ∧
    (d.length + c.virtualFill = 255 * c.interleave.toNat → ∀ e, perform k c d ≠ .ret (.error e)) := by
  constructor
  · intro h
    have : canCorrect d.length c.interleave c.virtualFill = false := by simp [canCorrect, N, h]
    simp [perform, this]
  · intro h e
    rcases Nat.eq_zero_or_pos c.interleave.toNat with h0 | h0
    · have : canCorrect d.length c.interleave c.virtualFill = true := by simp [canCorrect, N, h]
      simp [perform, this, deinterleave, h0]
    · rw [perform_accepted k c d h0 h]
      cases hm : messageLoop k c (padded c d) ((List.range c.interleave.toNat).map (codeword c.interleave.toNat (padded c d))) 0
        (List.replicate (255 * c.interleave.toNat) 0#8) 0 with
      | panic => simp
      | ret x =>
        simp only [Outcome.ret_bind]
        cases x with
        | early i d => simp [finish]
        | done cor num =>
          unfold finish
          cases c.removeParity
          · simp only [Bool.false_eq_true, if_false, Outcome.ret_bind]
            split <;> (try split) <;> simp
          · simp only [if_true]
            cases removeParity c cor with
            | panic => simp
            | ret z => simp only [Outcome.ret_bind]; split <;> (try split) <;> simp

/-- No panic for an accepted block, when the interleave is not 0 and the virtual fill leaves room for the check symbols. -/
theorem C38_no_panic (k : Codec) (code : List U8 → Prop) (hk : Bounded k code) (c : Config) (d : List U8)
    (hp : c.parityLen = 32) (hI : 0 < c.interleave.toNat) (hvf : c.virtualFill ≤ 223 * c.interleave.toNat)
    (hlen : d.length + c.virtualFill = 255 * c.interleave.toNat) :
    ∃ i r, perform k c d = .ret (.ok (i, r)) := by
  rw [perform_accepted k c d hI hlen]
  have hpl : (padded c d).length = 255 * c.interleave.toNat := by simp [padded]; omega
  rcases messageLoop_total k code hk c (padded c d) (by rw [hpl, hp]; omega)
    ((List.range c.interleave.toNat).map (codeword c.interleave.toNat (padded c d))) 0
    (List.replicate (255 * c.interleave.toNat) 0#8) 0 (by simp) (by simp) (by
      intro m hm
      obtain ⟨i, _, rfl⟩ := List.mem_map.1 hm
      simp) with ⟨i, r, e⟩ | ⟨cor, n, e, l⟩
  · exact ⟨i, r, by rw [e]; rfl⟩
  · rw [e]
    simp only [Outcome.ret_bind, finish]
    cases hr : c.removeParity
    · simp only [Bool.false_eq_true, if_false, Outcome.ret_bind]
      rw [if_neg (by omega)]
      split <;> exact ⟨_, _, rfl⟩
    · have : removeParity c cor = .ret (cor.take (cor.length - c.interleave.toNat * 32)) := by
        simp only [removeParity, hp, l]
        rw [if_neg (by omega)]
      simp only [if_true, this, Outcome.ret_bind]
      rw [if_neg (by simp [l]; omega)]
      split <;> exact ⟨_, _, rfl⟩

/-- Interleave 0 panics for the only block that passes the length test. -/
theorem C38_interleave_zero (k : Codec) (c : Config) (h : c.interleave.toNat = 0) (hv : c.virtualFill = 0) :
    perform k c [] = .panic := by
  simp [perform, canCorrect, N, h, hv, deinterleave]

/-! ## C39  Correctable blocks come back as transmitted -/

/-- `tx` is the transmitted block, `rx` the received one; the codewords are taken from the blocks with the virtual fill
zeros in front. -/
theorem C39_corrects (k : Codec) (code : List U8 → Prop) (hk : Bounded k code) (c : Config) (tx rx : List U8)
    (hp : c.parityLen = 32) (hI : 0 < c.interleave.toNat) (hvf : c.virtualFill ≤ 223 * c.interleave.toNat)
    (hlen : tx.length + c.virtualFill = 255 * c.interleave.toNat) (hrx : rx.length = tx.length)
    (hcode : ∀ i, i < c.interleave.toNat → code (codeword c.interleave.toNat (List.replicate c.virtualFill 0#8 ++ tx) i))
    (hd : ∀ i, i < c.interleave.toNat →
      dist (codeword c.interleave.toNat (List.replicate c.virtualFill 0#8 ++ rx) i)
        (codeword c.interleave.toNat (List.replicate c.virtualFill 0#8 ++ tx) i) ≤ 16)
    (hcorr : c.correct = true ∨ rx = tx) :
    perform k c rx = .ret (.ok (if rx = tx then .ok else .corrected,
      if c.removeParity then tx.take (tx.length - 32 * c.interleave.toNat) else tx)) := by
  obtain ⟨num, e, hn⟩ := perform_write k c rx (padded c tx) hI (by omega) (by simp [padded]; omega) (by
    intro i hi
    have hc := hcode i hi
    have hdi := hd i hi
    change code (codeword c.interleave.toNat (padded c tx) i) at hc
    change dist (codeword c.interleave.toNat (padded c rx) i) (codeword c.interleave.toNat (padded c tx) i) ≤ 16 at hdi
    refine ⟨?_, ?_⟩
    · rcases hcorr with h | h
      · simp [h]
      · have := (hk.detects (codeword c.interleave.toNat (padded c rx) i) (by simp)).2 (by rw [h]; exact hc)
        simp [this]
    · by_cases heq : codeword c.interleave.toNat (padded c rx) i = codeword c.interleave.toNat (padded c tx) i
      · exact ⟨.ok, 0, by rw [heq]; exact hk.clean _ hc, by simp, by simp, by simp [heq]⟩
      · obtain ⟨n, hn, e⟩ := hk.corrects _ _ (by simp) hc heq hdi
        exact ⟨.corrected n, n, e, by simp, by simp, by simp [heq]; omega⟩)
  rw [e, finish_done c tx num hp hlen (by intro; omega)]
  have : (num = 0) ↔ rx = tx := by
    rw [hn]
    unfold padded
    exact ⟨fun h => List.append_cancel_left h, fun h => by rw [h]⟩
  simp only [this]

/-- A count of positions that all lie in a window of 16. -/
theorem countP_window (n q : Nat) (P : Nat → Bool) (h : ∀ p, p < n → P p = true → q ≤ p ∧ p < q + 16) :
    (List.range n).countP P ≤ min n (q + 16) - min n q := by
  induction n with
  | zero => simp
  | succ n ih =>
    rw [List.range_succ, List.countP_append]
    have := ih (fun p hp => h p (by omega))
    simp only [List.countP_cons, List.countP_nil]
    by_cases hp : P n = true
    · have := h n (by omega) hp
      simp [hp]; omega
    · simp [hp]; omega

theorem dist_map (l : List Nat) (f g : Nat → U8) : dist (l.map f) (l.map g) = l.countP (fun p => f p != g p) := by
  unfold dist
  induction l with
  | nil => rfl
  | cons p l ih =>
    simp only [List.map_cons, List.zipWith_cons_cons, List.sum_cons, ih, List.countP_cons]
    by_cases h : f p = g p
    · simp [h]
    · simp [h]; omega

/-- Any burst of errors within `16 I` consecutive bytes is corrected. -/
theorem C39_burst (k : Codec) (code : List U8 → Prop) (hk : Bounded k code) (c : Config) (tx rx : List U8) (a : Nat)
    (hp : c.parityLen = 32) (hI : 0 < c.interleave.toNat) (hvf : c.virtualFill ≤ 223 * c.interleave.toNat)
    (hlen : tx.length + c.virtualFill = 255 * c.interleave.toNat) (hrx : rx.length = tx.length)
    (hcode : ∀ i, i < c.interleave.toNat → code (codeword c.interleave.toNat (List.replicate c.virtualFill 0#8 ++ tx) i))
    (hburst : ∀ j, rx[j]? ≠ tx[j]? → a ≤ j ∧ j < a + 16 * c.interleave.toNat)
    (hcorr : c.correct = true) (hr : c.removeParity = true) :
    perform k c rx = .ret (.ok (if rx = tx then .ok else .corrected, tx.take (tx.length - 32 * c.interleave.toNat))) := by
  have := C39_corrects k code hk c tx rx hp hI hvf hlen hrx hcode (by
    intro i hi
    unfold codeword
    rw [dist_map]
    generalize c.interleave.toNat = I at *
    have key := countP_window 255 ((a + c.virtualFill + I - 1 - i) / I)
      (fun p => (List.replicate c.virtualFill 0#8 ++ rx).getD (p * I + i) 0 != (List.replicate c.virtualFill 0#8 ++ tx).getD (p * I + i) 0)
      (by
        intro p hp hne
        have hne : (List.replicate c.virtualFill 0#8 ++ rx).getD (p * I + i) 0 ≠ (List.replicate c.virtualFill 0#8 ++ tx).getD (p * I + i) 0 := by
          simpa using hne
        have hge : c.virtualFill ≤ p * I + i := by
          apply Classical.byContradiction
          intro hlt
          apply hne
          rw [List.getD_eq_getElem?_getD, List.getD_eq_getElem?_getD, List.getElem?_append_left (by simp; omega),
            List.getElem?_append_left (by simp; omega)]
        have hb := hburst (p * I + i - c.virtualFill) (by
          intro heq
          apply hne
          rw [List.getD_eq_getElem?_getD, List.getD_eq_getElem?_getD, List.getElem?_append_right (by simp; omega),
            List.getElem?_append_right (by simp; omega)]
          simp [heq])
        constructor
        · have : (a + c.virtualFill + I - 1 - i) / I < p + 1 := by
            rw [Nat.div_lt_iff_lt_mul hI, Nat.add_mul]
            omega
          omega
        · by_cases h16 : p < 16
          · exact Nat.lt_of_lt_of_le h16 (Nat.le_add_left _ _)
          · have : p - 15 ≤ (a + c.virtualFill + I - 1 - i) / I := by
              rw [Nat.le_div_iff_mul_le hI, Nat.sub_mul]
              have : 16 * I ≤ p * I := Nat.mul_le_mul_right _ (by omega)
              omega
            omega)
    omega) (Or.inl hcorr)
  rw [this, hr]
  rfl

/-- Soundness: if `perform` reports `Ok` or `Corrected`, then before parity and fill removal the block consisted of code
words, each within distance 16 of what was received; and `Ok` means nothing was changed. -/
theorem C39_sound (k : Codec) (code : List U8 → Prop) (hk : Bounded k code) (c : Config) (rx : List U8)
    (hp : c.parityLen = 32) (hI : 0 < c.interleave.toNat)
    (hlen : rx.length + c.virtualFill = 255 * c.interleave.toNat) (i : Integrity) (d : List U8)
    (h : perform k c rx = .ret (.ok (i, d))) (hok : i = .ok ∨ i = .corrected) :
    ∃ sent, sent.length = 255 * c.interleave.toNat ∧
      (∀ j, j < c.interleave.toNat → code (codeword c.interleave.toNat sent j) ∧
        dist (codeword c.interleave.toNat (List.replicate c.virtualFill 0#8 ++ rx) j) (codeword c.interleave.toNat sent j) ≤ 16) ∧
      (i = .ok ↔ List.replicate c.virtualFill 0#8 ++ rx = sent) ∧
      d = (if c.removeParity then sent.take (223 * c.interleave.toNat) else sent).drop c.virtualFill := by
  have hacc := perform_accepted k c rx hI hlen
  have hpl : (padded c rx).length = 255 * c.interleave.toNat := by simp [padded]; omega
  -- every codeword has a code word within 16, and is error free if correction is off
  have hall : ∀ j, j < c.interleave.toNat → ∃ w, code w ∧ dist (codeword c.interleave.toNat (padded c rx) j) w ≤ 16 ∧
      (c.correct = true ∨ codeword c.interleave.toNat (padded c rx) j = w) := by
    intro j hj
    cases hc : c.correct
    · by_cases hcode : code (codeword c.interleave.toNat (padded c rx) j)
      · refine ⟨_, hcode, ?_, Or.inr rfl⟩
        unfold codeword
        rw [dist_map]
        simp
      · exfalso
        rw [hacc, messageLoop_notCorrected k code hk c _ hc _ _ _ _ (by simp) (by simp)
          (by intro m hm; obtain ⟨i, _, rfl⟩ := List.mem_map.1 hm; simp)
          ⟨_, List.mem_map.2 ⟨j, by simpa using hj, rfl⟩, hcode⟩] at h
        simp only [Outcome.ret_bind, finish, Outcome.ret.injEq, Except.ok.injEq, Prod.mk.injEq] at h
        rcases hok with rfl | rfl <;> cases h.1
    · apply Classical.byContradiction
      intro hno
      rw [hacc, messageLoop_uncorrectable k code hk c _ hc (by rw [hpl, hp]; omega) _ _ _ _ (by simp) (by simp)
          (by intro m hm; obtain ⟨i, _, rfl⟩ := List.mem_map.1 hm; simp)
          ⟨_, List.mem_map.2 ⟨j, by simpa using hj, rfl⟩, fun w hw => by
            apply Classical.byContradiction
            intro hle
            exact hno ⟨w, hw, by omega, Or.inl rfl⟩⟩] at h
      simp only [Outcome.ret_bind, finish, Outcome.ret.injEq, Except.ok.injEq, Prod.mk.injEq] at h
      rcases hok with rfl | rfl <;> cases h.1
  have hch : ∃ tgt : Nat → List U8, ∀ j, j < c.interleave.toNat → code (tgt j) ∧
      dist (codeword c.interleave.toNat (padded c rx) j) (tgt j) ≤ 16 ∧
      (c.correct = true ∨ codeword c.interleave.toNat (padded c rx) j = tgt j) := by
    refine ⟨fun j => if hj : j < c.interleave.toNat then Classical.choose (hall j hj) else [], fun j hj => ?_⟩
    simp only [hj, dif_pos]
    exact Classical.choose_spec (hall j hj)
  obtain ⟨tgt, htgt⟩ := hch
  have hcw : ∀ j, j < c.interleave.toNat → codeword c.interleave.toNat (assemble c.interleave.toNat tgt) j = tgt j :=
    fun j hj => assemble_codeword tgt j hj (hk.length _ (htgt j hj).1)
  obtain ⟨num, e, hn⟩ := perform_write k c rx (assemble c.interleave.toNat tgt) hI hlen (assemble_length _ _) (by
    intro j hj
    obtain ⟨h1, h2, h3⟩ := htgt j hj
    rw [hcw j hj]
    refine ⟨?_, ?_⟩
    · rcases h3 with h | h
      · simp [h]
      · have := (hk.detects (codeword c.interleave.toNat (padded c rx) j) (by simp)).2 (by rw [h]; exact h1)
        simp [this]
    · by_cases heq : codeword c.interleave.toNat (padded c rx) j = tgt j
      · exact ⟨.ok, 0, by rw [heq]; exact hk.clean _ h1, by simp, by simp, by simp [heq]⟩
      · obtain ⟨n, hn, e⟩ := hk.corrects _ _ (by simp) h1 heq h2
        exact ⟨.corrected n, n, e, by simp, by simp, by simp [heq]; omega⟩)
  refine ⟨assemble c.interleave.toNat tgt, assemble_length _ _, fun j hj => ?_, ?_⟩
  · rw [hcw j hj]; exact ⟨(htgt j hj).1, (htgt j hj).2.1⟩
  · rw [e] at h
    have hal := assemble_length c.interleave.toNat tgt
    generalize assemble c.interleave.toNat tgt = sent at *
    change _ ∧ d = _
    unfold finish at h
    have hz : ∀ z : List U8, (if z.length < c.virtualFill then (Outcome.panic : Outcome (Except Error (Integrity × List U8)))
        else if num = 0 then .ret (.ok (.ok, z.drop c.virtualFill)) else .ret (.ok (.corrected, z.drop c.virtualFill)))
        = .ret (.ok (i, d)) → (i = .ok ↔ padded c rx = sent) ∧ d = z.drop c.virtualFill := by
      intro z hz
      by_cases h1 : z.length < c.virtualFill
      · rw [if_pos h1] at hz; cases hz
      · rw [if_neg h1] at hz
        by_cases h0 : num = 0
        · rw [if_pos h0] at hz
          simp only [Outcome.ret.injEq, Except.ok.injEq, Prod.mk.injEq] at hz
          exact ⟨⟨fun _ => hn.1 h0, fun _ => hz.1.symm⟩, hz.2.symm⟩
        · rw [if_neg h0] at hz
          simp only [Outcome.ret.injEq, Except.ok.injEq, Prod.mk.injEq] at hz
          refine ⟨⟨fun h => ?_, fun h => absurd (hn.2 h) h0⟩, hz.2.symm⟩
          rw [← hz.1] at h; cases h
    cases hr : c.removeParity
    · simp only [hr, Bool.false_eq_true, if_false, Outcome.ret_bind] at h ⊢
      exact hz _ h
    · have hrp : removeParity c sent = .ret (sent.take (223 * c.interleave.toNat)) := by
        simp only [removeParity, hp, hal]
        rw [if_neg (by omega)]
        congr 2; omega
      simp only [hr, if_true, hrp, Outcome.ret_bind] at h ⊢
      exact hz _ h

/-! A bounded-distance decoder exists for every code of minimum distance 33 (so the assumption on `rs2` is satisfiable). -/

theorem dist_self (a : List U8) : dist a a = 0 := by
  unfold dist
  induction a with
  | nil => rfl
  | cons x a ih => rw [List.zipWith_cons_cons, List.sum_cons, ih, if_pos rfl]

theorem dist_comm (a b : List U8) : dist a b = dist b a := by
  unfold dist
  congr 1
  induction a generalizing b with
  | nil => simp
  | cons x a ih =>
    cases b with
    | nil => simp
    | cons y b => simp only [List.zipWith_cons_cons, ih]; congr 1; simp [eq_comm]

theorem dist_triangle (a b c : List U8) (h1 : a.length = b.length) (h2 : b.length = c.length) :
    dist a c ≤ dist a b + dist b c := by
  unfold dist
  induction a generalizing b c with
  | nil => simp
  | cons x a ih =>
    match b, c, h1, h2 with
    | y :: b, z :: c, h1, h2 =>
      simp only [List.length_cons, Nat.add_right_cancel_iff] at h1 h2
      have := ih b c h1 h2
      simp only [List.zipWith_cons_cons, List.sum_cons]
      by_cases e1 : x = y
      · by_cases e2 : y = z
        · simp [e1, e2]; omega
        · simp [e1, e2]; omega
      · by_cases e2 : x = z
        · simp [e1, e2]; omega
        · simp only [e1, e2, if_false]; omega

open Classical in
/-- The bounded-distance decoder of a code. -/
noncomputable def bddCodec (code : List U8 → Prop) : Codec where
  hasErrors m := !decide (code m)
  correctMessage m :=
    if code m then (.ok, some m)
    else if h : ∃ c, code c ∧ dist m c ≤ 16 then (.corrected (dist m (choose h) + 1), some (choose h))
    else (.uncorrectable, none)

theorem bddCodec_bounded (code : List U8 → Prop) (hlen : ∀ c, code c → c.length = 255)
    (hdist : ∀ c c', code c → code c' → c ≠ c' → 33 ≤ dist c c') : Bounded (bddCodec code) code where
  length := hlen
  detects m _ := by simp [bddCodec]
  clean c hc := by simp [bddCodec, hc]
  corrects m c hm hc hne hd := by
    have hnot : ¬ code m := by
      intro h
      have := hdist m c h hc hne
      omega
    have hex : ∃ c, code c ∧ dist m c ≤ 16 := ⟨c, hc, hd⟩
    have hch := Classical.choose_spec hex
    have heq : Classical.choose hex = c := by
      apply Classical.byContradiction
      intro hne'
      have h1 := hdist _ _ hch.1 hc hne'
      have h2 := dist_triangle (Classical.choose hex) m c (by rw [hlen _ hch.1, hm]) (by rw [hlen _ hc, hm])
      rw [dist_comm (Classical.choose hex) m] at h2
      omega
    refine ⟨dist m c + 1, by omega, ?_⟩
    simp only [bddCodec, hnot, if_false]
    rw [dif_pos hex, heq]
  gives_up m _ h := by
    have hnot : ¬ code m := by
      intro hc
      have := h m hc
      have e := dist_self m
      omega
    have hex : ¬ ∃ c, code c ∧ dist m c ≤ 16 := by
      rintro ⟨c, hc, hd⟩
      have := h c hc
      omega
    simp only [bddCodec, hnot, if_false]
    rw [dif_neg hex]

/-- A code of minimum distance 255: all bytes equal. -/
def repCode (c : List U8) : Prop := ∃ b : U8, c = List.replicate 255 b

theorem dist_replicate (n : Nat) (a b : U8) (h : a ≠ b) : dist (List.replicate n a) (List.replicate n b) = n := by
  unfold dist
  induction n with
  | zero => rfl
  | succ n ih => rw [List.replicate_succ, List.replicate_succ, List.zipWith_cons_cons, List.sum_cons, ih, if_neg h]; omega

theorem repCode_bounded : Bounded (bddCodec repCode) repCode := by
  apply bddCodec_bounded
  · rintro c ⟨b, rfl⟩; exact List.length_replicate
  · rintro c c' ⟨a, rfl⟩ ⟨b, rfl⟩ hne
    rw [dist_replicate]
    · omega
    · rintro rfl; exact hne rfl

theorem ex_tail (n j : Nat) (h : (5#8 :: 6#8 :: List.replicate n 9#8)[j]? ≠ (List.replicate (n + 2) 9#8)[j]?) : j < 2 := by
  match j, h with
  | 0, _ => omega
  | 1, _ => omega
  | j + 2, h => exact absurd rfl h

theorem ex_ne (n : Nat) : 5#8 :: 6#8 :: List.replicate n 9#8 ≠ List.replicate (n + 2) 9#8 := by
  rw [List.replicate_succ]
  intro h
  injection h with h _
  revert h; decide

/-- A concrete block meets the hypotheses of C39: depth 2, a frame of 9s, a burst of two errors. -/
example : perform (bddCodec repCode) (Config.new 2) (5#8 :: 6#8 :: List.replicate 508 9#8) =
    .ret (.ok (.corrected, List.replicate 446 9#8)) := by
  have h2 : (Config.new 2).interleave.toNat = 2 := by decide
  have := C39_burst (bddCodec repCode) repCode repCode_bounded (Config.new 2) (List.replicate (508 + 2) 9#8)
    (5#8 :: 6#8 :: List.replicate 508 9#8) 0 rfl (by decide) (by decide)
    (by rw [List.length_replicate]; decide)
    (by rw [List.length_replicate, List.length_cons, List.length_cons, List.length_replicate])
    (by
      intro i hi
      refine ⟨9, ?_⟩
      rw [h2] at hi ⊢
      apply List.ext_getElem?
      intro p
      by_cases hp : p < 255
      · rw [codeword_getElem? _ _ _ _ hp, List.getElem?_replicate_of_lt hp]
        change some ((List.replicate (508 + 2) 9#8).getD _ _) = _
        rw [List.getD_eq_getElem?_getD, List.getElem?_replicate_of_lt (by omega)]; rfl
      · rw [List.getElem?_eq_none (by rw [codeword_length]; omega), List.getElem?_eq_none (by rw [List.length_replicate]; omega)])
    (by
      intro j hj
      have := ex_tail _ j hj
      rw [h2]
      omega)
    rfl rfl
  rw [this, h2]
  rw [if_neg (ex_ne 508)]
  rw [List.length_replicate, List.take_replicate]
  rfl

/-! ## C40  Uncorrectable and uncorrected blocks -/

/-- The documented behaviour: when errors remain, the disposition says so and the data are the input bytes. -/
def C40_full (k : Codec) (code : List U8 → Prop) : Prop :=
  ∀ (c : Config) (rx : List U8), c.parityLen = 32 → 0 < c.interleave.toNat →
    rx.length + c.virtualFill = 255 * c.interleave.toNat →
    (c.correct = true →
      (∃ i, i < c.interleave.toNat ∧ ∀ w, code w →
        16 < dist (codeword c.interleave.toNat (List.replicate c.virtualFill 0#8 ++ rx) i) w) →
      perform k c rx = .ret (.ok (.uncorrectable, rx))) ∧
    (c.correct = false →
      (∃ i, i < c.interleave.toNat ∧ ¬ code (codeword c.interleave.toNat (List.replicate c.virtualFill 0#8 ++ rx) i)) →
      perform k c rx = .ret (.ok (.notCorrected, rx)))

/-- What holds: the dispositions are right, and the data returned are the zero-filled input without check symbols
(`Uncorrectable`) or with them (`NotCorrected`). Missing from the full statement: "the data are the input bytes" (true only
for `NotCorrected` without virtual fill). -/
theorem C40_partial (k : Codec) (code : List U8 → Prop) (hk : Bounded k code) (c : Config) (rx : List U8)
    (hp : c.parityLen = 32) (hI : 0 < c.interleave.toNat)
    (hlen : rx.length + c.virtualFill = 255 * c.interleave.toNat) :
    (c.correct = true →
      (∃ i, i < c.interleave.toNat ∧ ∀ w, code w →
        16 < dist (codeword c.interleave.toNat (List.replicate c.virtualFill 0#8 ++ rx) i) w) →
      perform k c rx = .ret (.ok (.uncorrectable, (List.replicate c.virtualFill 0#8 ++ rx).take (223 * c.interleave.toNat)))) ∧
    (c.correct = false →
      (∃ i, i < c.interleave.toNat ∧ ¬ code (codeword c.interleave.toNat (List.replicate c.virtualFill 0#8 ++ rx) i)) →
      perform k c rx = .ret (.ok (.notCorrected, List.replicate c.virtualFill 0#8 ++ rx))) := by
  have hpl : (padded c rx).length = 255 * c.interleave.toNat := by simp [padded]; omega
  constructor
  · rintro hc ⟨i, hi, hbad⟩
    rw [show List.replicate c.virtualFill 0#8 ++ rx = padded c rx from rfl] at hbad ⊢
    rw [perform_accepted k c rx hI hlen, messageLoop_uncorrectable k code hk c _ hc (by rw [hpl, hp]; omega) _ _ _ _ (by simp)
      (by simp) (by intro m hm; obtain ⟨i, _, rfl⟩ := List.mem_map.1 hm; simp)
      ⟨_, List.mem_map.2 ⟨i, by simpa using hi, rfl⟩, hbad⟩]
    simp only [Outcome.ret_bind, finish, hp, hpl]
    rw [show 255 * c.interleave.toNat - c.interleave.toNat * 32 = 223 * c.interleave.toNat by omega]
  · rintro hc ⟨i, hi, hbad⟩
    rw [show List.replicate c.virtualFill 0#8 ++ rx = padded c rx from rfl] at hbad ⊢
    rw [perform_accepted k c rx hI hlen, messageLoop_notCorrected k code hk c _ hc _ _ _ _ (by simp)
      (by simp) (by intro m hm; obtain ⟨i, _, rfl⟩ := List.mem_map.1 hm; simp)
      ⟨_, List.mem_map.2 ⟨i, by simpa using hi, rfl⟩, hbad⟩]
    rfl

theorem codeword_one (l : List U8) (h : l.length = 255) : codeword 1 l 0 = l := by
  apply List.ext_getElem?
  intro p
  by_cases hp : p < 255
  · rw [codeword_getElem? _ _ _ _ hp, List.getD_eq_getElem?_getD, List.getElem?_eq_getElem (by omega),
      List.getElem?_eq_getElem (by omega)]
    simp
  · rw [List.getElem?_eq_none (by simp; omega), List.getElem?_eq_none (by omega)]

/-- When `perform` panics, exactly: on an accepted block with interleave 0 (so an empty one), and with virtual fill longer than the payload of the block, when the check
symbols are to be removed and no code word stops the algorithm early. -/
theorem C38_panic_iff (k : Codec) (code : List U8 → Prop) (hk : Bounded k code) (c : Config) (d : List U8) (hp : c.parityLen = 32) :
    perform k c d = .panic ↔ d.length + c.virtualFill = 255 * c.interleave.toNat ∧
      (c.interleave.toNat = 0 ∨ (c.removeParity = true ∧ 223 * c.interleave.toNat < c.virtualFill ∧
        ∀ i, i < c.interleave.toNat →
          (c.correct = true → ∃ w, code w ∧ dist (codeword c.interleave.toNat (List.replicate c.virtualFill 0#8 ++ d) i) w ≤ 16) ∧
          (c.correct = false → code (codeword c.interleave.toNat (List.replicate c.virtualFill 0#8 ++ d) i)))) := by
  by_cases hlen : d.length + c.virtualFill = 255 * c.interleave.toNat
  rotate_left
  · rw [(C38_error_iff k c d).1 hlen]
    constructor
    · intro h; cases h
    · intro h; exact absurd h.1 hlen
  by_cases hI : 0 < c.interleave.toNat
  rotate_left
  · have h0 : c.interleave.toNat = 0 := by omega
    have hd : d = [] := List.eq_nil_of_length_eq_zero (by omega)
    subst hd
    rw [C38_interleave_zero k c h0 (by simp at hlen; omega)]
    exact ⟨fun _ => ⟨hlen, Or.inl h0⟩, fun _ => rfl⟩
  by_cases hvf : c.virtualFill ≤ 223 * c.interleave.toNat
  · obtain ⟨i, r, e⟩ := C38_no_panic k code hk c d hp hI hvf hlen
    rw [e]
    constructor
    · intro h; cases h
    · rintro ⟨_, h | ⟨_, h, _⟩⟩ <;> omega
  have hpl : (padded c d).length = 255 * c.interleave.toNat := by simp [padded]; omega
  by_cases hgood : ∀ i, i < c.interleave.toNat →
          (c.correct = true → ∃ w, code w ∧ dist (codeword c.interleave.toNat (List.replicate c.virtualFill 0#8 ++ d) i) w ≤ 16) ∧
          (c.correct = false → code (codeword c.interleave.toNat (List.replicate c.virtualFill 0#8 ++ d) i))
  · have hw : ∀ i, ∃ w, i < c.interleave.toNat → code w ∧ dist (codeword c.interleave.toNat (padded c d) i) w ≤ 16 ∧
        (c.correct = false → code (codeword c.interleave.toNat (padded c d) i)) := by
      intro i
      by_cases hi : i < c.interleave.toNat
      · have hg := hgood i hi
        cases hc : c.correct
        · have := hg.2 hc
          exact ⟨codeword c.interleave.toNat (padded c d) i, fun _ => ⟨this, by rw [dist_self]; omega, fun _ => this⟩⟩
        · obtain ⟨w, h1, h2⟩ := hg.1 hc
          exact ⟨w, fun _ => ⟨h1, h2, by simp⟩⟩
      · exact ⟨[], fun h => absurd h hi⟩
    obtain ⟨tgt, htgt⟩ := Classical.axiomOfChoice hw
    obtain ⟨num, e, _⟩ := perform_write k c d (assemble c.interleave.toNat tgt) hI hlen (assemble_length _ _) (by
      intro i hi
      obtain ⟨h1, h2, h3⟩ := htgt i hi
      rw [assemble_codeword tgt i hi (hk.length _ h1)]
      refine ⟨?_, ?_⟩
      · cases hc : c.correct
        · have := (hk.detects (codeword c.interleave.toNat (padded c d) i) (by simp)).2 (h3 hc)
          simp [this]
        · rfl
      · by_cases heq : codeword c.interleave.toNat (padded c d) i = tgt i
        · exact ⟨.ok, 0, by rw [heq]; exact hk.clean _ h1, by simp, by simp, by simp [heq]⟩
        · obtain ⟨n, hn, e⟩ := hk.corrects _ _ (by simp) h1 heq h2
          exact ⟨.corrected n, n, e, by simp, by simp, by simp [heq]; omega⟩)
    rw [e]
    have hal := assemble_length c.interleave.toNat tgt
    cases hr : c.removeParity
    · have : finish c (.done (assemble c.interleave.toNat tgt) num) ≠ .panic := by
        simp only [finish, hr, Bool.false_eq_true, if_false, Outcome.ret_bind]
        rw [if_neg (by omega)]
        split <;> simp
      simp only [this, Bool.false_eq_true, false_and, or_false, false_iff, not_and]
      intro _; omega
    · have hrp : removeParity c (assemble c.interleave.toNat tgt) = .ret ((assemble c.interleave.toNat tgt).take (255 * c.interleave.toNat - c.interleave.toNat * 32)) := by
        simp only [removeParity, hp, hal]
        rw [if_neg (by omega)]
      have : finish c (.done (assemble c.interleave.toNat tgt) num) = .panic := by
        simp only [finish, hr, if_true, hrp, Outcome.ret_bind]
        rw [if_pos (by rw [List.length_take, hal]; omega)]
      rw [this]
      exact ⟨fun _ => ⟨hlen, Or.inr ⟨rfl, by omega, hgood⟩⟩, fun _ => rfl⟩
  · have hne : perform k c d ≠ .panic := by
      obtain ⟨i, hi⟩ := Classical.not_forall.1 hgood
      obtain ⟨hi, hbad⟩ := Classical.not_imp.1 hi
      cases hc : c.correct
      · rw [(C40_partial k code hk c d hp hI hlen).2 hc ⟨i, hi, fun h => hbad ⟨by simp [hc], fun _ => h⟩⟩]
        simp
      · rw [(C40_partial k code hk c d hp hI hlen).1 hc ⟨i, hi, fun w hw => by
          refine Nat.lt_of_not_le fun hle => hbad ⟨fun _ => ⟨w, hw, hle⟩, by simp [hc]⟩⟩]
        simp
    constructor
    · intro h; exact absurd h hne
    · rintro ⟨_, h | ⟨_, _, h⟩⟩
      · omega
      · exact absurd h hgood

/-- Such a panic: the whole block is virtual fill. -/
example : perform (bddCodec repCode) ((Config.new 1).withVirtualFill 255) [] = .panic := by
  refine (C38_panic_iff _ _ repCode_bounded _ [] rfl).2 ⟨rfl, Or.inr ⟨rfl, by decide, fun i hi => ⟨fun _ => ?_, fun h => by cases h⟩⟩⟩
  have hi0 : i = 0 := by have : i < 1 := hi; omega
  subst hi0
  refine ⟨List.replicate 255 0#8, ⟨0#8, rfl⟩, ?_⟩
  have e : codeword ((Config.new 1).withVirtualFill 255).interleave.toNat
      (List.replicate ((Config.new 1).withVirtualFill 255).virtualFill 0#8 ++ []) 0 = List.replicate 255 0#8 := by
    rw [List.append_nil]
    exact codeword_one _ (by rw [List.length_replicate]; rfl)
  rw [e, dist_self]; omega

/-- So the data of an `Uncorrectable` block are never the input bytes (unless the fill happens to be as long as the check
symbols). -/
theorem C40_uncorrectable_differs (k : Codec) (code : List U8 → Prop) (hk : Bounded k code) (c : Config) (rx : List U8)
    (hp : c.parityLen = 32) (hI : 0 < c.interleave.toNat) (hv : c.virtualFill ≠ 32 * c.interleave.toNat)
    (hlen : rx.length + c.virtualFill = 255 * c.interleave.toNat) (hc : c.correct = true)
    (hbad : ∃ i, i < c.interleave.toNat ∧ ∀ w, code w →
        16 < dist (codeword c.interleave.toNat (List.replicate c.virtualFill 0#8 ++ rx) i) w) :
    perform k c rx ≠ .ret (.ok (.uncorrectable, rx)) := by
  rw [(C40_partial k code hk c rx hp hI hlen).1 hc hbad]
  intro h
  simp only [Outcome.ret.injEq, Except.ok.injEq, Prod.mk.injEq, true_and] at h
  have := congrArg List.length h
  simp at this
  omega

/-- A received word with one error in the first byte, for a code with the zero word. -/
theorem one_error (k : Codec) (code : List U8 → Prop) (hk : Bounded k code) (h0 : code (List.replicate 255 0#8))
    (l : List U8) (n : Nat) (hl : l = List.replicate n 0#8 ++ 1#8 :: List.replicate (254 - n) 0#8) (hn : n ≤ 254) :
    l.length = 255 ∧ l ≠ List.replicate 255 0#8 ∧ dist l (List.replicate 255 0#8) ≤ 16 ∧ ¬ code l := by
  have e : (List.replicate 255 0#8) = List.replicate n 0#8 ++ 0#8 :: List.replicate (254 - n) 0#8 := by
    rw [← List.replicate_succ, List.replicate_append_replicate]; congr 1; omega
  have hlen : l.length = 255 := by
    rw [hl, List.length_append, List.length_cons, List.length_replicate, List.length_replicate]; omega
  have hne : l ≠ List.replicate 255 0#8 := by
    rw [hl, e]
    intro h
    have := List.append_cancel_left h
    simp at this
  have hd : ∀ (a b : List U8) (c : List U8), dist (c ++ a) (c ++ b) = dist a b := by
    intro a b c
    unfold dist
    induction c with
    | nil => rfl
    | cons x c ih => simp [ih]
  have hdist : dist l (List.replicate 255 0#8) ≤ 16 := by
    rw [hl, e, hd]
    have := dist_self (List.replicate (254 - n) 0#8)
    unfold dist at this ⊢
    rw [List.zipWith_cons_cons, List.sum_cons, this]
    decide
  refine ⟨hlen, hne, hdist, fun hc => ?_⟩
  obtain ⟨m, _, e1⟩ := hk.corrects l _ hlen h0 hne hdist
  rw [hk.clean l hc, Prod.mk.injEq] at e1
  cases e1.1

/-- For every bounded-distance decoder of a code with the zero word (such as any linear code) the full statement is false. -/
theorem C40_violated (k : Codec) (code : List U8 → Prop) (hk : Bounded k code) (h0 : code (List.replicate 255 0#8)) :
    ¬ C40_full k code := by
  intro h
  let c : Config := ((Config.new 1).withCorrection false).withVirtualFill 1
  obtain ⟨h1, _, _, h4⟩ := one_error k code hk h0 (0#8 :: 1#8 :: List.replicate 253 0#8) 1 rfl (by omega)
  have hl : (1#8 :: List.replicate 253 0#8).length + c.virtualFill = 255 * c.interleave.toNat := by
    rw [List.length_cons, List.length_replicate]; rfl
  have hbad : ∃ i, i < c.interleave.toNat ∧ ¬ code (codeword c.interleave.toNat (List.replicate c.virtualFill 0#8 ++ (1#8 :: List.replicate 253 0#8)) i) :=
    ⟨0, by decide, by
      have e1 : c.interleave.toNat = 1 := by decide
      have e2 : List.replicate c.virtualFill 0#8 ++ (1#8 :: List.replicate 253 0#8) = 0#8 :: 1#8 :: List.replicate 253 0#8 := rfl
      rw [e1, e2, codeword_one _ h1]; exact h4⟩
  have f := (h c _ rfl (by decide) hl).2 rfl hbad
  rw [(C40_partial k code hk c _ rfl (by decide) hl).2 rfl hbad] at f
  simp only [Outcome.ret.injEq, Except.ok.injEq, Prod.mk.injEq, true_and] at f
  have := congrArg List.length f
  simp only [List.length_append, List.length_replicate] at this
  have : c.virtualFill = 1 := rfl
  omega

example : repCode (List.replicate 255 0#8) := ⟨0, rfl⟩

/-! ## C41  The detection switch -/

/-- The documented behaviour: with detection off only the check symbols are removed. -/
def C41_full (k : Codec) : Prop :=
  ∀ (il : U8) (rx : List U8), 0 < il.toNat → rx.length = 255 * il.toNat →
    ∃ i, perform k ((Config.new il).withDetection false) rx = .ret (.ok (i, rx.take (223 * il.toNat)))

/-- The flag has no influence at all. -/
theorem C41_ignored (k : Codec) (c : Config) (e e' : Bool) (rx : List U8) :
    perform k (c.withDetection e) rx = perform k (c.withDetection e') rx := by
  have hm : ∀ (cadu : List U8) (msgs : List (List U8)) (idx : Nat) (cor : List U8) (num : Nat),
      messageLoop k (c.withDetection e) cadu msgs idx cor num = messageLoop k (c.withDetection e') cadu msgs idx cor num := by
    intro cadu msgs
    induction msgs with
    | nil => intros; rfl
    | cons m msgs ih =>
      intro idx cor num
      simp only [messageLoop, Config.withDetection, removeParity] at ih ⊢
      cases hcm : k.correctMessage m with
      | mk st msg => cases st <;> cases msg <;> simp only [hcm, ih] <;> rfl
  simp only [perform]
  simp only [hm]
  rfl

/-- So correctable errors are corrected although the algorithm was switched off. -/
theorem C41_violated (k : Codec) (code : List U8 → Prop) (hk : Bounded k code) (h0 : code (List.replicate 255 0#8)) :
    ¬ C41_full k := by
  intro h
  obtain ⟨h1, h2, h3, h4⟩ := one_error k code hk h0 (1#8 :: List.replicate 254 0#8) 0 rfl (by omega)
  obtain ⟨i, e⟩ := h 1 (1#8 :: List.replicate 254 0#8) (by decide) (by rw [h1]; rfl)
  have t := C39_corrects k code hk ((Config.new 1).withDetection false) (List.replicate 255 0#8) (1#8 :: List.replicate 254 0#8)
    rfl (by decide) (by decide) (by rw [List.length_replicate]; rfl) (by rw [h1, List.length_replicate])
    (by
      intro i hi
      have : i = 0 := by
        have : i < 1 := hi
        omega
      subst this
      change code (codeword 1 (List.replicate 255 0#8) 0)
      rw [codeword_one _ List.length_replicate]; exact h0)
    (by
      intro i hi
      have : i = 0 := by
        have : i < 1 := hi
        omega
      subst this
      change dist (codeword 1 (1#8 :: List.replicate 254 0#8) 0) (codeword 1 (List.replicate 255 0#8) 0) ≤ 16
      rw [codeword_one _ List.length_replicate, codeword_one _ h1]; exact h3) (Or.inl rfl)
  rw [e] at t
  simp only [Outcome.ret.injEq, Except.ok.injEq, Prod.mk.injEq] at t
  have t2 := t.2
  have hrp : ((Config.new 1).withDetection false).removeParity = true := rfl
  have hil : ((Config.new 1).withDetection false).interleave.toNat = 1 := by decide
  have h223 : 223 * (1 : U8).toNat = 222 + 1 := by decide
  rw [hrp, hil, h223, if_pos rfl, List.take_succ_cons, List.length_replicate, List.take_replicate, List.take_replicate,
    show min (255 - 32 * 1) 255 = 222 + 1 by decide, List.replicate_succ] at t2
  have t3 := List.head_eq_of_cons_eq t2
  revert t3
  decide

/-- What holds: for blocks without errors the check symbols are removed and nothing else changes, whatever the flags. -/
theorem C41_partial (k : Codec) (code : List U8 → Prop) (hk : Bounded k code) (c : Config) (rx : List U8)
    (hp : c.parityLen = 32) (hI : 0 < c.interleave.toNat) (hvf : c.virtualFill ≤ 223 * c.interleave.toNat)
    (hr : c.removeParity = true) (hlen : rx.length + c.virtualFill = 255 * c.interleave.toNat)
    (hcode : ∀ i, i < c.interleave.toNat → code (codeword c.interleave.toNat (List.replicate c.virtualFill 0#8 ++ rx) i)) :
    perform k c rx = .ret (.ok (.ok, rx.take (rx.length - 32 * c.interleave.toNat))) := by
  rw [C39_corrects k code hk c rx rx hp hI hvf hlen rfl hcode
    (by intro i hi; unfold codeword; rw [dist_map]; simp) (Or.inr rfl), if_pos rfl, hr]
  rfl

/-! ## C44  The per-frame job of the Reed-Solomon stage -/

/-- Fill frames pass unchanged. -/
theorem C44_fill (k : Codec) (o : Opts) (f : Frame) (h : f.header.vcid = 63) : job k o f = .ret f := by
  have : ¬ (f.header.vcid ≠ VCDUHeader.FILL) := fun n => n h
  rw [job, if_neg this]

/-- Every other frame keeps its header and gap count, gets the disposition computed for its data, and has its data replaced
exactly for `Ok` and `Corrected`; the job panics iff the algorithm rejects the data length or panics. -/
theorem C44_frame (k : Codec) (o : Opts) (f : Frame) (h : f.header.vcid ≠ 63) :
    (∀ i d, perform k o.config f.data = .ret (.ok (i, d)) →
      ∃ f', job k o f = .ret f' ∧ f'.header = f.header ∧ f'.missing = f.missing ∧ f'.integrity = some i ∧
        ((i = .ok ∨ i = .corrected) → f'.data = d) ∧ (i ≠ .ok → i ≠ .corrected → f'.data = f.data)) ∧
    ((∀ i d, perform k o.config f.data ≠ .ret (.ok (i, d))) → job k o f = .panic) := by
  have hv : f.header.vcid ≠ VCDUHeader.FILL := h
  unfold job
  rw [if_pos hv]
  constructor
  · intro i d e
    rw [e]
    refine ⟨_, rfl, rfl, rfl, rfl, ?_, ?_⟩
    · rintro (rfl | rfl) <;> rfl
    · intro h1 h2
      cases i <;> simp_all [Integrity.isOk]
  · intro hno
    cases e : perform k o.config f.data with
    | panic => rfl
    | ret r =>
      cases r with
      | error _ => rfl
      | ok x => exact absurd e (hno x.1 x.2)

/-- The panic condition in terms of the frame length (for depth ≥ 1 and fill that leaves room for the check symbols). -/
theorem C44_panic_iff (k : Codec) (code : List U8 → Prop) (hk : Bounded k code) (o : Opts) (f : Frame)
    (hv : f.header.vcid ≠ 63) (hI : 0 < o.interleave.toNat) (hvf : o.virtualFill ≤ 223 * o.interleave.toNat) :
    job k o f = .panic ↔ f.data.length + o.virtualFill ≠ 255 * o.interleave.toNat := by
  constructor
  · intro h hlen
    obtain ⟨i, d, e⟩ := C38_no_panic k code hk o.config f.data rfl hI hvf hlen
    obtain ⟨f', e', _⟩ := (C44_frame k o f hv).1 i d e
    rw [h] at e'; cases e'
  · intro hlen
    apply (C44_frame k o f hv).2
    intro i d
    rw [(C38_error_iff k o.config f.data).1 hlen]
    simp

/-- The same for every setting: the stage panics on a frame of the wrong length, and where `perform` does (C38_panic_iff). -/
theorem C44_panic_any (k : Codec) (code : List U8 → Prop) (hk : Bounded k code) (o : Opts) (f : Frame) (hv : f.header.vcid ≠ 63) :
    job k o f = .panic ↔ f.data.length + o.virtualFill ≠ 255 * o.interleave.toNat ∨ o.interleave.toNat = 0 ∨
      (223 * o.interleave.toNat < o.virtualFill ∧ ∀ i, i < o.interleave.toNat →
        (o.correct = true → ∃ w, code w ∧ dist (codeword o.interleave.toNat (List.replicate o.virtualFill 0#8 ++ f.data) i) w ≤ 16) ∧
        (o.correct = false → code (codeword o.interleave.toNat (List.replicate o.virtualFill 0#8 ++ f.data) i))) := by
  have hiff := C38_panic_iff k code hk o.config f.data rfl
  constructor
  · intro h
    by_cases hlen : f.data.length + o.virtualFill = 255 * o.interleave.toNat
    · right
      have hperf : perform k o.config f.data = .panic := by
        cases e : perform k o.config f.data with
        | panic => rfl
        | ret r =>
          cases r with
          | error x => exact absurd e ((C38_error_iff k o.config f.data).2 hlen x)
          | ok x =>
            obtain ⟨f', e', _⟩ := (C44_frame k o f hv).1 x.1 x.2 e
            rw [h] at e'; cases e'
      rcases (hiff.1 hperf).2 with h0 | ⟨_, h1, h2⟩
      · exact Or.inl h0
      · exact Or.inr ⟨h1, h2⟩
    · exact Or.inl hlen
  · intro h
    apply (C44_frame k o f hv).2
    intro i d e
    by_cases hlen : f.data.length + o.virtualFill = 255 * o.interleave.toNat
    · have hperf : perform k o.config f.data = .panic := by
        apply hiff.2
        refine ⟨hlen, ?_⟩
        rcases h with h | h | ⟨h1, h2⟩
        · exact absurd hlen h
        · exact Or.inl h
        · exact Or.inr ⟨rfl, h1, h2⟩
      rw [hperf] at e; cases e
    · rw [(C38_error_iff k o.config f.data).1 hlen] at e; cases e

/-- End to end: a damaged frame within the correction radius leaves the stage as transmitted, without check symbols. -/
theorem C44_corrects (k : Codec) (code : List U8 → Prop) (hk : Bounded k code) (o : Opts) (f : Frame) (tx : List U8)
    (hv : f.header.vcid ≠ 63) (hI : 0 < o.interleave.toNat) (hvf : o.virtualFill ≤ 223 * o.interleave.toNat)
    (hlen : tx.length + o.virtualFill = 255 * o.interleave.toNat) (hrx : f.data.length = tx.length)
    (hcode : ∀ i, i < o.interleave.toNat → code (codeword o.interleave.toNat (List.replicate o.virtualFill 0#8 ++ tx) i))
    (hd : ∀ i, i < o.interleave.toNat →
      dist (codeword o.interleave.toNat (List.replicate o.virtualFill 0#8 ++ f.data) i)
        (codeword o.interleave.toNat (List.replicate o.virtualFill 0#8 ++ tx) i) ≤ 16)
    (hcorr : o.correct = true) :
    job k o f = .ret ⟨f.header, f.missing, some (if f.data = tx then .ok else .corrected),
      tx.take (tx.length - 32 * o.interleave.toNat)⟩ := by
  have e := C39_corrects k code hk o.config tx f.data rfl hI hvf hlen hrx hcode hd (Or.inl hcorr)
  have hv' : f.header.vcid ≠ VCDUHeader.FILL := hv
  unfold job
  rw [if_pos hv', e]
  by_cases h : f.data = tx
  · simp only [h, if_true, Outcome.ret_bind, Integrity.isOk]; rfl
  · simp only [h, if_false, Outcome.ret_bind, Integrity.isOk]; rfl

/-! ## C45  Header and data after correction -/

def C45_full (k : Codec) : Prop :=
  ∀ (o : Opts) (f f' : Frame), VCDUHeader.decode f.data = some f.header → job k o f = .ret f' →
    (f'.integrity = some .ok ∨ f'.integrity = some .corrected) → VCDUHeader.decode f'.data = some f'.header

/-- False for every bounded-distance decoder of a code with the zero word: an error in the first header byte is corrected in
the data but not in the header. -/
theorem C45_violated (k : Codec) (code : List U8 → Prop) (hk : Bounded k code) (h0 : code (List.replicate 255 0#8)) :
    ¬ C45_full k := by
  intro h
  obtain ⟨h1, h2, h3, h4⟩ := one_error k code hk h0 (1#8 :: List.replicate 254 0#8) 0 rfl (by omega)
  let f : Frame := ⟨⟨0, 16, 0, 0⟩, 0, none, 1#8 :: List.replicate 254 0#8⟩
  have t := C44_corrects k code hk ⟨1, 0, true, true⟩ f (List.replicate 255 0#8) (by decide) (by decide) (by decide)
    (by rw [List.length_replicate]; rfl) (by rw [List.length_replicate]; exact h1)
    (by
      intro i hi
      have : i = 0 := by
        have : i < 1 := hi
        omega
      subst this
      change code (codeword 1 (List.replicate 255 0#8) 0)
      rw [codeword_one _ List.length_replicate]; exact h0)
    (by
      intro i hi
      have : i = 0 := by
        have : i < 1 := hi
        omega
      subst this
      change dist (codeword 1 (1#8 :: List.replicate 254 0#8) 0) (codeword 1 (List.replicate 255 0#8) 0) ≤ 16
      rw [codeword_one _ List.length_replicate, codeword_one _ h1]; exact h3) rfl
  have hne : ¬ f.data = List.replicate 255 0#8 := h2
  rw [if_neg hne] at t
  have := h ⟨1, 0, true, true⟩ f _ (by decide +kernel) t (Or.inr rfl)
  have hil : (1 : U8).toNat = 1 := by decide
  dsimp only [] at this
  rw [hil, List.length_replicate, List.take_replicate, show min (255 - 32 * 1) 255 = 223 by decide] at this
  revert this
  decide +kernel

/-- It does hold for frames reported `Ok` (and for fill frames, which are not touched). -/
theorem C45_partial (k : Codec) (code : List U8 → Prop) (hk : Bounded k code) (o : Opts) (f f' : Frame)
    (hI : 0 < o.interleave.toNat) (hdec : VCDUHeader.decode f.data = some f.header) (hj : job k o f = .ret f')
    (hok : f'.integrity = some .ok) (hlen6 : 6 ≤ f'.data.length) :
    VCDUHeader.decode f'.data = some f'.header := by
  by_cases hv : f.header.vcid = 63
  · rw [C44_fill k o f hv] at hj
    simp only [Outcome.ret.injEq] at hj
    subst hj; exact hdec
  · obtain ⟨a, b⟩ := C44_frame k o f hv
    by_cases hex : ∃ i d, perform k o.config f.data = .ret (.ok (i, d))
    · obtain ⟨i, d, e⟩ := hex
      obtain ⟨g, eg, g1, g2, g3, g4, g5⟩ := a i d e
      rw [hj] at eg
      simp only [Outcome.ret.injEq] at eg
      subst eg
      rw [hok] at g3
      have hi : i = .ok := (Option.some.inj g3).symm
      subst hi
      have hd := g4 (Or.inl rfl)
      have hlen : f.data.length + o.config.virtualFill = 255 * o.config.interleave.toNat := by
        apply Classical.byContradiction
        intro hne
        rw [(C38_error_iff k o.config f.data).1 hne] at e
        cases e
      obtain ⟨sent, _, _, hs, hdd⟩ := C39_sound k code hk o.config f.data rfl hI hlen .ok d e (Or.inl rfl)
      have hs := hs.1 rfl
      subst hs
      rw [g1, ← hdec, hd, hdd]
      have hr : o.config.removeParity = true := rfl
      rw [hr]
      simp only [if_true]
      have hpre : ((List.replicate o.config.virtualFill 0#8 ++ f.data).take (223 * o.config.interleave.toNat)).drop o.config.virtualFill
          = f.data.take (223 * o.config.interleave.toNat - o.config.virtualFill) := by
        rw [List.drop_take, List.drop_left' (by simp)]
      rw [hpre]
      have hl6 : 6 ≤ (f.data.take (223 * o.config.interleave.toNat - o.config.virtualFill)).length := by
        rw [← hpre]
        rw [hd, hdd, hr] at hlen6
        simpa using hlen6
      apply C33_prefix _ _ hl6
      rw [List.take_take, Nat.min_eq_left]
      rw [List.length_take] at hl6
      omega
    · rw [b (fun i d e => hex ⟨i, d, e⟩)] at hj
      cases hj

/-- C45, exactly: for a damaged frame within the correction radius, whose received header reads as a channel other than 63, the data leave the stage as transmitted, and the header is the
received one, whatever was corrected; it is the header of the data exactly if the errors left the header fields as they were.  A frame whose received header reads as channel 63 is passed on as
received, without an integrity, however little is wrong with it. -/
theorem C45_exact (k : Codec) (code : List U8 → Prop) (hk : Bounded k code) (o : Opts) (f : Frame) (tx : List U8) (hdec : VCDUHeader.decode f.data = some f.header)
    (hI : 0 < o.interleave.toNat) (hvf : o.virtualFill + 6 ≤ 223 * o.interleave.toNat) (hlen : tx.length + o.virtualFill = 255 * o.interleave.toNat)
    (hrx : f.data.length = tx.length)
    (hcode : ∀ i, i < o.interleave.toNat → code (codeword o.interleave.toNat (List.replicate o.virtualFill 0#8 ++ tx) i))
    (hd : ∀ i, i < o.interleave.toNat →
      dist (codeword o.interleave.toNat (List.replicate o.virtualFill 0#8 ++ f.data) i)
        (codeword o.interleave.toNat (List.replicate o.virtualFill 0#8 ++ tx) i) ≤ 16)
    (hcorr : o.correct = true) :
    (f.header.vcid = 63 → job k o f = .ret f) ∧
    (f.header.vcid ≠ 63 → ∃ f', job k o f = .ret f' ∧ f'.data = tx.take (tx.length - 32 * o.interleave.toNat) ∧ f'.header = f.header ∧
      (VCDUHeader.decode f'.data = some f'.header ↔ VCDUHeader.decode tx = VCDUHeader.decode f.data)) := by
  refine ⟨C44_fill k o f, fun hv => ⟨_, C44_corrects k code hk o f tx hv hI (by omega) hlen hrx hcode hd hcorr, rfl, rfl, ?_⟩⟩
  have h6 : VCDUHeader.decode (tx.take (tx.length - 32 * o.interleave.toNat)) = VCDUHeader.decode tx := by
    refine C33_prefix _ _ (by rw [List.length_take]; omega) ?_
    rw [List.take_take, Nat.min_eq_left (by omega)]
  simp only
  rw [h6, hdec]

end Ccsds
