import Verif.Spec.ReedSolomon
/-! Helper lemmas about the Reed-Solomon block handling. -/
namespace Ccsds
open Spec

theorem forRange_inv {σ : Type} (P : Nat → σ → Prop) (n : Nat) (f : Nat → σ → Outcome σ) (s : σ) (h0 : P 0 s)
    (hs : ∀ i, i < n → ∀ s, P i s → ∃ s', f i s = .ret s' ∧ P (i + 1) s') :
    ∃ s', forRange n f s = .ret s' ∧ P n s' := by
  induction n with
  | zero => exact ⟨s, rfl, h0⟩
  | succ n ih =>
    obtain ⟨s1, e1, h1⟩ := ih (fun i hi => hs i (by omega))
    obtain ⟨s2, e2, h2⟩ := hs n (by omega) s1 h1
    exact ⟨s2, by simp [forRange, e1, e2], h2⟩

theorem idx_mod {I idx j : Nat} (h : idx < I) : (idx + j * I) % I = idx := by
  rw [Nat.add_mul_mod_self_right, Nat.mod_eq_of_lt h]

theorem idx_div {I idx j : Nat} (h : idx < I) : (idx + j * I) / I = j := by
  rw [Nat.add_mul_div_right _ _ (by omega), Nat.div_eq_of_lt h, Nat.zero_add]

theorem idx_eq (q I : Nat) : q % I + q / I * I = q := by
  rw [Nat.mul_comm, Nat.mod_add_div]

theorem idx_lt {I idx j n : Nat} (h : idx < I) (hj : j < n) : idx + j * I < n * I := by
  have : (j + 1) * I ≤ n * I := Nat.mul_le_mul_right _ hj
  rw [Nat.add_mul] at this
  omega

theorem div_lt {q n I : Nat} (h : q < n * I) : q / I < n := by
  have : 0 < I := by
    rcases Nat.eq_zero_or_pos I with h0 | h0
    · subst h0; simp at h
    · exact h0
  rw [Nat.div_lt_iff_lt_mul this]; exact h

@[simp] theorem codeword_length (I : Nat) (b : List U8) (i : Nat) : (codeword I b i).length = 255 := by simp [codeword]

theorem codeword_getElem? (I : Nat) (b : List U8) (i p : Nat) (hp : p < 255) :
    (codeword I b i)[p]? = some (b.getD (p * I + i) 0) := by
  simp [codeword, hp]

namespace RS

theorem deinterleave_eq (data : List U8) (il : U8) (hI : 0 < il.toNat) (hlen : data.length = 255 * il.toNat) :
    deinterleave data il = .ret ((List.range il.toNat).map (codeword il.toNat data)) := by
  unfold deinterleave
  generalize il.toNat = I at *
  rw [if_neg (by omega), if_neg (by rw [hlen]; simp)]
  have hrow : (List.replicate 255 0#8).length = 255 := List.length_replicate
  have hrowp : ∀ p, p < 255 → (List.replicate 255 0#8)[p]? = some 0 := fun p hp => List.getElem?_replicate_of_lt hp
  generalize List.replicate 255 0#8 = zrow at *
  obtain ⟨z, e, hz1, hz2⟩ := forRange_inv (σ := List (List U8))
    (fun j z => z.length = I ∧ ∀ i, i < I → ∃ row, z[i]? = some row ∧ row.length = 255 ∧
      ∀ p, p < 255 → row[p]? = some (if p * I + i < j then data.getD (p * I + i) 0 else 0))
    data.length (deinterleaveStep data I) (List.replicate I zrow)
    ⟨by simp, fun i hi => ⟨zrow, by simp [hi], hrow, fun p hp => by simp [hrowp p hp]⟩⟩
    (by
      rintro j hj z ⟨hz1, hz2⟩
      have hjI : j % I < I := Nat.mod_lt _ hI
      have hjd : j / I < 255 := div_lt (by omega)
      obtain ⟨row, hr, hrl, hrp⟩ := hz2 (j % I) hjI
      refine ⟨z.set (j % I) (row.set (j / I) data[j]), ?_, by simpa using hz1, ?_⟩
      · simp [deinterleaveStep, hr, hj, hrl, hjd]
      · intro i hi
        by_cases hij : i = j % I
        · refine ⟨row.set (j / I) data[j], by rw [hij]; simp [hz1, hjI], by simpa using hrl, fun p hp => ?_⟩
          have hq := idx_eq j I
          by_cases hpj : p = j / I
          · subst hpj
            have : j / I * I + i = j := by rw [hij]; omega
            rw [this]
            simp [hrl, hjd, hj]
          · rw [List.getElem?_set_ne (by omega), hrp p hp, ← hij]
            have hne : p * I + i ≠ j := by
              intro e
              apply hpj
              rw [← e, Nat.add_comm, idx_div hi]
            congr 1
            by_cases hlt : p * I + i < j
            · rw [if_pos hlt, if_pos (by omega)]
            · rw [if_neg hlt, if_neg (by omega)]
        · obtain ⟨row', hr', hrl', hrp'⟩ := hz2 i hi
          refine ⟨row', by rw [List.getElem?_set_ne (by omega)]; exact hr', hrl', fun p hp => ?_⟩
          rw [hrp' p hp]
          have hne : p * I + i ≠ j := by
            intro e
            apply hij
            rw [← e, Nat.add_comm, idx_mod hi]
          congr 1
          by_cases hlt : p * I + i < j
          · rw [if_pos hlt, if_pos (by omega)]
          · rw [if_neg hlt, if_neg (by omega)])
  rw [e]
  congr 1
  apply List.ext_getElem?
  intro i
  by_cases hi : i < I
  · obtain ⟨row, hr, hrl, hrp⟩ := hz2 i hi
    rw [hr]
    simp only [List.getElem?_map, List.getElem?_range hi, Option.map_some]
    congr 1
    apply List.ext_getElem?
    intro p
    by_cases hp : p < 255
    · rw [hrp p hp, codeword_getElem? _ _ _ _ hp, if_pos]
      have := idx_lt hi hp
      omega
    · rw [List.getElem?_eq_none (by omega), List.getElem?_eq_none (by simp; omega)]
  · rw [List.getElem?_eq_none (by omega), List.getElem?_eq_none (by simp; omega)]

theorem writeMessage_eq (I idx : Nat) (message c : List U8) (hidx : idx < I) (hm : message.length = 255)
    (hc : c.length = 255 * I) :
    ∃ c', writeMessage I idx message c = .ret c' ∧ c'.length = 255 * I ∧
      ∀ q, q < 255 * I → c'[q]? = if q % I = idx then message[q / I]? else c[q]? := by
  obtain ⟨c', e, h1, h2⟩ := forRange_inv (σ := List U8)
    (fun j c' => c'.length = 255 * I ∧ ∀ q, q < 255 * I → c'[q]? = if q % I = idx ∧ q / I < j then message[q / I]? else c[q]?)
    message.length (fun j c =>
      match message[j]? with
      | none => .panic
      | some x => if idx + j * I < c.length then .ret (c.set (idx + j * I) x) else .panic) c
    ⟨hc, fun q _ => by simp⟩
    (by
      rintro j hj s ⟨hs1, hs2⟩
      have hlt := idx_lt (I := I) hidx (show j < 255 by omega)
      refine ⟨s.set (idx + j * I) message[j], by simp [hj, hs1, hlt], by simpa using hs1, fun q hq => ?_⟩
      by_cases hqe : q = idx + j * I
      · rw [hqe, idx_mod hidx, idx_div hidx]
        simp [hs1, hlt, hj]
      · rw [List.getElem?_set_ne (fun e => hqe e.symm), hs2 q hq]
        by_cases hm : q % I = idx
        · have : q / I ≠ j := by
            intro e; apply hqe
            rw [← hm, ← e, idx_eq]
          by_cases hlt2 : q / I < j
          · rw [if_pos ⟨hm, hlt2⟩, if_pos ⟨hm, by omega⟩]
          · rw [if_neg (fun x => hlt2 x.2), if_neg (fun x => by have := x.2; omega)]
        · rw [if_neg (fun x => hm x.1), if_neg (fun x => hm x.1)])
  refine ⟨c', e, h1, fun q hq => ?_⟩
  rw [h2 q hq]
  have : q / I < message.length := by rw [hm]; exact div_lt hq
  simp [this]

/-- Whatever the codec, if it answers every message with a 255-byte message, these are written back. `n` is the number of
corrections it reports. -/
theorem messageLoop_write (k : Codec) (c : Config) (cadu : List U8)
    (tgt : Nat → List U8) (msgs : List (List U8)) : ∀ (idx : Nat) (cor : List U8) (num : Nat),
    idx + msgs.length = c.interleave.toNat → cor.length = 255 * c.interleave.toNat →
    (∀ i m, msgs[i]? = some m → (!c.correct && k.hasErrors m) = false ∧ (tgt (idx + i)).length = 255 ∧
      ∃ st n, k.correctMessage m = (st, some (tgt (idx + i))) ∧ st ≠ .uncorrectable ∧
        (∀ num : Nat, (match st with | .corrected n => num + n | _ => num) = num + n) ∧ (n = 0 ↔ m = tgt (idx + i))) →
    ∃ cor' num', messageLoop k c cadu msgs idx cor num = .ret (.done cor' num') ∧
      cor'.length = 255 * c.interleave.toNat ∧
      (∀ q, q < 255 * c.interleave.toNat → cor'[q]? =
        if idx ≤ q % c.interleave.toNat then (tgt (q % c.interleave.toNat))[q / c.interleave.toNat]? else cor[q]?) ∧
      (num' = 0 ↔ num = 0 ∧ ∀ i m, msgs[i]? = some m → m = tgt (idx + i)) := by
  induction msgs with
  | nil =>
    intro idx cor num hl hc _
    refine ⟨cor, num, rfl, hc, fun q hq => ?_, by simp⟩
    have hI : 0 < c.interleave.toNat := by
      rcases Nat.eq_zero_or_pos c.interleave.toNat with h0 | h0
      · rw [h0] at hq; simp at hq
      · exact h0
    have := Nat.mod_lt q hI
    simp at hl
    rw [if_neg (by omega)]
  | cons m msgs ih =>
    intro idx cor num hl hc hall
    simp only [List.length_cons] at hl
    obtain ⟨hno, htl, st, n, e, hst, hnum, hn⟩ := hall 0 m rfl
    simp only [Nat.add_zero] at htl e hn
    have hnum := hnum num
    obtain ⟨c1, e1, l1, g1⟩ := writeMessage_eq c.interleave.toNat idx (tgt idx) cor (by omega) htl hc
    obtain ⟨cor', num', e2, l2, g2, z2⟩ := ih (idx + 1) c1 (num + n) (by omega) l1 (by
      intro i m' hi
      have := hall (i + 1) m' (by simpa using hi)
      rw [show idx + (i + 1) = idx + 1 + i by omega] at this
      exact this)
    refine ⟨cor', num', ?_, l2, fun q hq => ?_, ?_⟩
    · have : messageLoop k c cadu (m :: msgs) idx cor num = messageLoop k c cadu msgs (idx + 1) c1 (num + n) := by
        rw [messageLoop, hno]
        simp only [e]
        cases st with
        | uncorrectable => exact absurd rfl hst
        | ok => simp only at hnum; simp [e1, ← hnum]
        | corrected x => simp only at hnum; simp [e1, hnum]
        | notPerformed => simp only at hnum; simp [e1, ← hnum]
      rw [this, e2]
    · rw [g2 q hq, g1 q hq]
      by_cases h1 : idx + 1 ≤ q % c.interleave.toNat
      · rw [if_pos h1, if_pos (by omega)]
      · rw [if_neg h1]
        by_cases h2 : q % c.interleave.toNat = idx
        · rw [if_pos h2, if_pos (by omega), h2]
        · rw [if_neg h2, if_neg (by omega)]
    · rw [z2]
      constructor
      · rintro ⟨h1, h2⟩
        refine ⟨by omega, fun i m' hi => ?_⟩
        cases i with
        | zero => simp at hi; subst hi; exact hn.1 (by omega)
        | succ i =>
          simp at hi
          have := h2 i m' hi
          rw [show idx + (i + 1) = idx + 1 + i by omega]; exact this
      · rintro ⟨h1, h2⟩
        have : n = 0 := hn.2 (h2 0 m rfl)
        refine ⟨by omega, fun i m' hi => ?_⟩
        have := h2 (i + 1) m' (by simpa using hi)
        rw [show idx + (i + 1) = idx + 1 + i by omega] at this; exact this

/-- All messages correctable: the loop writes the nearest code words. -/
theorem messageLoop_done (k : Codec) (code : List U8 → Prop) (hk : Bounded k code) (c : Config) (cadu : List U8)
    (tgt : Nat → List U8) (msgs : List (List U8)) (idx : Nat) (cor : List U8) (num : Nat)
    (hl : idx + msgs.length = c.interleave.toNat) (hc : cor.length = 255 * c.interleave.toNat)
    (hall : ∀ i m, msgs[i]? = some m → m.length = 255 ∧ code (tgt (idx + i)) ∧ dist m (tgt (idx + i)) ≤ 16 ∧
      (c.correct = true ∨ m = tgt (idx + i))) :
    ∃ cor' num', messageLoop k c cadu msgs idx cor num = .ret (.done cor' num') ∧
      cor'.length = 255 * c.interleave.toNat ∧
      (∀ q, q < 255 * c.interleave.toNat → cor'[q]? =
        if idx ≤ q % c.interleave.toNat then (tgt (q % c.interleave.toNat))[q / c.interleave.toNat]? else cor[q]?) ∧
      (num' = 0 ↔ num = 0 ∧ ∀ i m, msgs[i]? = some m → m = tgt (idx + i)) := by
  refine messageLoop_write k c cadu tgt msgs idx cor num hl hc (fun i m hi => ?_)
  obtain ⟨hm, hcode, hd, hcor⟩ := hall i m hi
  refine ⟨?_, hk.length _ hcode, ?_⟩
  · rcases hcor with h | h
    · simp [h]
    · have := (hk.detects m hm).2 (h ▸ hcode)
      simp [this]
  · by_cases hmt : m = tgt (idx + i)
    · exact ⟨.ok, 0, by rw [hmt]; exact hk.clean _ hcode, by simp, by simp, by simp [hmt]⟩
    · obtain ⟨n, hn, e⟩ := hk.corrects m _ hm hcode hmt hd
      exact ⟨.corrected n, n, e, by simp, by simp, by simp [hmt]; omega⟩

/-- What one call of the codec can return. -/
theorem codec_cases (k : Codec) (code : List U8 → Prop) (hk : Bounded k code) (m : List U8) (hm : m.length = 255) :
    ((k.correctMessage m).1 = .uncorrectable ∧ ∀ c, code c → 16 < dist m c) ∨
    ∃ st c, k.correctMessage m = (st, some c) ∧ st ≠ .uncorrectable ∧ c.length = 255 ∧ code c := by
  by_cases h : ∀ c, code c → 16 < dist m c
  · exact Or.inl ⟨hk.gives_up m hm h, h⟩
  · right
    have ⟨c, hc⟩ := Classical.not_forall.1 h
    have ⟨h1, h2⟩ := Classical.not_imp.1 hc
    by_cases hmc : m = c
    · exact ⟨.ok, c, by rw [hmc]; exact hk.clean c h1, by simp, hk.length c h1, h1⟩
    · obtain ⟨n, _, e⟩ := hk.corrects m c hm h1 hmc (by omega)
      exact ⟨.corrected n, c, e, by simp, hk.length c h1, h1⟩

/-- With correction on, one uncorrectable message makes the whole block uncorrectable. -/
theorem messageLoop_uncorrectable (k : Codec) (code : List U8 → Prop) (hk : Bounded k code) (c : Config) (cadu : List U8)
    (hcorr : c.correct = true) (hcl : c.interleave.toNat * c.parityLen ≤ cadu.length) (msgs : List (List U8)) :
    ∀ (idx : Nat) (cor : List U8) (num : Nat), idx + msgs.length = c.interleave.toNat →
    cor.length = 255 * c.interleave.toNat → (∀ m ∈ msgs, m.length = 255) →
    (∃ m ∈ msgs, ∀ w, code w → 16 < dist m w) →
    messageLoop k c cadu msgs idx cor num =
      .ret (.early .uncorrectable (cadu.take (cadu.length - c.interleave.toNat * c.parityLen))) := by
  induction msgs with
  | nil => rintro idx cor num _ _ _ ⟨m, hm, _⟩; cases hm
  | cons m msgs ih =>
    intro idx cor num hl hc hlen hbad
    simp only [List.length_cons] at hl
    have hm := hlen m (by simp)
    rw [messageLoop, hcorr]
    rcases codec_cases k code hk m hm with ⟨h, _⟩ | ⟨st, w, e, hst, hwl, hw⟩
    · simp only [h]
      have : ¬ cadu.length < c.interleave.toNat * c.parityLen := by omega
      simp [removeParity, this]
    · have hbad' : ∃ m ∈ msgs, ∀ w, code w → 16 < dist m w := by
        obtain ⟨m', hm', hb⟩ := hbad
        rcases List.mem_cons.1 hm' with h | h
        · subst h
          exfalso
          have := hk.gives_up m' hm hb
          rw [e] at this; exact hst this
        · exact ⟨m', h, hb⟩
      obtain ⟨c1, e1, l1, _⟩ := writeMessage_eq c.interleave.toNat idx w cor (by omega) hwl hc
      have ih' := fun n => ih (idx + 1) c1 n (by omega) l1 (fun m hm => hlen m (by simp [hm])) hbad'
      simp only [e]
      cases st with
      | uncorrectable => exact absurd rfl hst
      | ok => simp [e1, ih']
      | corrected x => simp [e1, ih']
      | notPerformed => simp [e1, ih']

/-- With correction off, one message with errors makes the whole block "not corrected". -/
theorem messageLoop_notCorrected (k : Codec) (code : List U8 → Prop) (hk : Bounded k code) (c : Config) (cadu : List U8)
    (hcorr : c.correct = false) (msgs : List (List U8)) :
    ∀ (idx : Nat) (cor : List U8) (num : Nat), idx + msgs.length = c.interleave.toNat →
    cor.length = 255 * c.interleave.toNat → (∀ m ∈ msgs, m.length = 255) → (∃ m ∈ msgs, ¬ code m) →
    messageLoop k c cadu msgs idx cor num = .ret (.early .notCorrected cadu) := by
  induction msgs with
  | nil => rintro idx cor num _ _ _ ⟨m, hm, _⟩; cases hm
  | cons m msgs ih =>
    intro idx cor num hl hc hlen hbad
    simp only [List.length_cons] at hl
    have hm := hlen m (by simp)
    rw [messageLoop, hcorr]
    by_cases he : k.hasErrors m = true
    · simp [he]
    · have hcode : code m := (hk.detects m hm).1 (by simpa using he)
      have hbad' : ∃ m ∈ msgs, ¬ code m := by
        obtain ⟨m', hm', hb⟩ := hbad
        rcases List.mem_cons.1 hm' with h | h
        · exact absurd (h ▸ hcode) hb
        · exact ⟨m', h, hb⟩
      obtain ⟨c1, e1, l1, _⟩ := writeMessage_eq c.interleave.toNat idx m cor (by omega) hm hc
      simp [he, hk.clean m hcode, e1, ih (idx + 1) c1 num (by omega) l1 (fun m hm => hlen m (by simp [hm])) hbad']

/-- The loop never panics when the codec is a bounded-distance decoder. -/
theorem messageLoop_total (k : Codec) (code : List U8 → Prop) (hk : Bounded k code) (c : Config) (cadu : List U8)
    (hcl : c.interleave.toNat * c.parityLen ≤ cadu.length) (msgs : List (List U8)) :
    ∀ (idx : Nat) (cor : List U8) (num : Nat), idx + msgs.length = c.interleave.toNat →
    cor.length = 255 * c.interleave.toNat → (∀ m ∈ msgs, m.length = 255) →
    (∃ i d, messageLoop k c cadu msgs idx cor num = .ret (.early i d)) ∨
    (∃ cor' n, messageLoop k c cadu msgs idx cor num = .ret (.done cor' n) ∧ cor'.length = 255 * c.interleave.toNat) := by
  induction msgs with
  | nil => intro idx cor num hl hc _; exact Or.inr ⟨cor, num, rfl, hc⟩
  | cons m msgs ih =>
    intro idx cor num hl hc hlen
    simp only [List.length_cons] at hl
    have hm := hlen m (by simp)
    rw [messageLoop]
    by_cases he : (!c.correct && k.hasErrors m) = true
    · rw [if_pos he]; exact Or.inl ⟨_, _, rfl⟩
    · rw [if_neg he]
      rcases codec_cases k code hk m hm with ⟨h, _⟩ | ⟨st, w, e, hst, hwl, hw⟩
      · simp only [h]
        have : ¬ cadu.length < c.interleave.toNat * c.parityLen := by omega
        simp [removeParity, this]
      · obtain ⟨c1, e1, l1, _⟩ := writeMessage_eq c.interleave.toNat idx w cor (by omega) hwl hc
        have ih' := fun n => ih (idx + 1) c1 n (by omega) l1 (fun m hm => hlen m (by simp [hm]))
        simp only [e]
        cases st with
        | uncorrectable => exact absurd rfl hst
        | ok => simp only [e1, Outcome.ret_bind]; exact ih' _
        | corrected x => simp only [e1, Outcome.ret_bind]; exact ih' _
        | notPerformed => simp only [e1, Outcome.ret_bind]; exact ih' _

/-- The block as seen by the algorithm. -/
def padded (c : Config) (d : List U8) : List U8 := List.replicate c.virtualFill 0#8 ++ d

theorem padded_eq (c : Config) (d : List U8) :
    (if c.virtualFill = 0 then d else List.replicate c.virtualFill 0#8 ++ d) = padded c d := by
  unfold padded
  split
  · rename_i h; rw [h]; rfl
  · rfl

/-- The rest of `perform` after the message loop. -/
def finish (c : Config) : LoopEnd → Outcome (Except Error (Integrity × List U8))
  | .early i d => .ret (.ok (i, d))
  | .done corrected num => do
      let zult ← if c.removeParity then removeParity c corrected else .ret corrected
      if zult.length < c.virtualFill then .panic
      else if num = 0 then .ret (.ok (.ok, zult.drop c.virtualFill)) else .ret (.ok (.corrected, zult.drop c.virtualFill))

theorem perform_accepted (k : Codec) (c : Config) (d : List U8) (hI : 0 < c.interleave.toNat)
    (hlen : d.length + c.virtualFill = 255 * c.interleave.toNat) :
    perform k c d = (messageLoop k c (padded c d) ((List.range c.interleave.toNat).map (codeword c.interleave.toNat (padded c d))) 0
      (List.replicate (255 * c.interleave.toNat) 0#8) 0) >>= finish c := by
  unfold perform
  have hc : canCorrect d.length c.interleave c.virtualFill = true := by simp [canCorrect, N, hlen]
  simp only [hc, padded_eq, hlen]
  rw [deinterleave_eq _ _ hI (by simp [padded]; omega)]
  simp only [Outcome.ret_bind]
  congr 1

theorem eq_of_codewords {I : Nat} (hI : 0 < I) {a b : List U8} (ha : a.length = 255 * I) (hb : b.length = 255 * I)
    (h : ∀ i, i < I → codeword I a i = codeword I b i) : a = b := by
  apply List.ext_getElem?
  intro q
  by_cases hq : q < 255 * I
  · have h1 := congrArg (fun l => l[q / I]?) (h (q % I) (Nat.mod_lt _ hI))
    have hd := div_lt hq
    simp only [codeword_getElem? _ _ _ _ hd] at h1
    rw [Nat.add_comm, idx_eq] at h1
    rw [List.getD_eq_getElem?_getD, List.getD_eq_getElem?_getD, List.getElem?_eq_getElem (by omega),
      List.getElem?_eq_getElem (by omega)] at h1
    simp at h1
    rw [List.getElem?_eq_getElem (by omega), List.getElem?_eq_getElem (by omega), h1]
  · rw [List.getElem?_eq_none (by omega), List.getElem?_eq_none (by omega)]

/-- The block assembled from given codewords. -/
def assemble (I : Nat) (tgt : Nat → List U8) : List U8 := (List.range (255 * I)).map fun q => (tgt (q % I)).getD (q / I) 0

theorem assemble_length (I : Nat) (tgt : Nat → List U8) : (assemble I tgt).length = 255 * I := by simp [assemble]

theorem assemble_codeword {I : Nat} (tgt : Nat → List U8) (i : Nat) (hi : i < I) (hl : (tgt i).length = 255) :
    codeword I (assemble I tgt) i = tgt i := by
  apply List.ext_getElem?
  intro p
  by_cases hp : p < 255
  · rw [codeword_getElem? _ _ _ _ hp]
    have := idx_lt hi hp
    rw [Nat.add_comm, List.getD_eq_getElem?_getD]
    simp only [assemble, List.getElem?_map, List.getElem?_range this, Option.map_some, Option.getD_some, idx_mod hi, idx_div hi]
    rw [List.getD_eq_getElem?_getD, List.getElem?_eq_getElem (by omega)]; rfl
  · rw [List.getElem?_eq_none (by simp; omega), List.getElem?_eq_none (by omega)]

/-- `perform` when the codec answers codeword `i` with codeword `i` of `sent`. -/
theorem perform_write (k : Codec) (c : Config) (d sent : List U8) (hI : 0 < c.interleave.toNat)
    (hlen : d.length + c.virtualFill = 255 * c.interleave.toNat) (hs : sent.length = 255 * c.interleave.toNat)
    (hk : ∀ i, i < c.interleave.toNat → (!c.correct && k.hasErrors (codeword c.interleave.toNat (padded c d) i)) = false ∧
      ∃ st n, k.correctMessage (codeword c.interleave.toNat (padded c d) i) = (st, some (codeword c.interleave.toNat sent i)) ∧
        st ≠ .uncorrectable ∧
        (∀ num : Nat, (match st with | .corrected n => num + n | _ => num) = num + n) ∧
        (n = 0 ↔ codeword c.interleave.toNat (padded c d) i = codeword c.interleave.toNat sent i)) :
    ∃ num, perform k c d = finish c (.done sent num) ∧ (num = 0 ↔ padded c d = sent) := by
  rw [perform_accepted k c d hI hlen]
  obtain ⟨cor, num, e, l, g, z⟩ := messageLoop_write k c (padded c d) (codeword c.interleave.toNat sent)
    ((List.range c.interleave.toNat).map (codeword c.interleave.toNat (padded c d))) 0
    (List.replicate (255 * c.interleave.toNat) 0#8) 0 (by simp) (by simp) (by
      intro i m hi
      have hlt : i < c.interleave.toNat := by
        have := (List.getElem?_eq_some_iff.1 hi).1
        simpa using this
      simp only [List.getElem?_map, List.getElem?_range hlt, Option.map_some, Option.some.injEq] at hi
      subst hi
      rw [Nat.zero_add]
      exact ⟨(hk i hlt).1, by simp, (hk i hlt).2⟩)
  have hcor : cor = sent := by
    apply List.ext_getElem?
    intro q
    by_cases hq : q < 255 * c.interleave.toNat
    · rw [g q hq, if_pos (Nat.zero_le _), codeword_getElem? _ _ _ _ (div_lt hq), Nat.add_comm, idx_eq,
        List.getD_eq_getElem?_getD, List.getElem?_eq_getElem (by omega)]; rfl
    · rw [List.getElem?_eq_none (by omega), List.getElem?_eq_none (by omega)]
  subst hcor
  refine ⟨num, by rw [e]; rfl, z.trans ⟨fun h => ?_, fun h => ⟨rfl, fun i m hi => ?_⟩⟩⟩
  · apply eq_of_codewords hI (by simp [padded]; omega) hs
    intro i hi
    have := h.2 i (codeword c.interleave.toNat (padded c d) i) (by simp [hi])
    rwa [Nat.zero_add] at this
  · have hlt : i < c.interleave.toNat := by
      have := (List.getElem?_eq_some_iff.1 hi).1
      simpa using this
    simp only [List.getElem?_map, List.getElem?_range hlt, Option.map_some, Option.some.injEq] at hi
    subst hi
    rw [h, Nat.zero_add]

/-- The end of `perform` when the algorithm arrived at virtual fill followed by `tx`. -/
theorem finish_done (c : Config) (tx : List U8) (num : Nat) (hpar : c.parityLen = 32)
    (hlen : tx.length + c.virtualFill = 255 * c.interleave.toNat)
    (hvf : c.removeParity = true → 32 * c.interleave.toNat ≤ tx.length) :
    finish c (.done (padded c tx) num) = .ret (.ok (if num = 0 then .ok else .corrected,
      if c.removeParity then tx.take (tx.length - 32 * c.interleave.toNat) else tx)) := by
  unfold finish
  have hp : (padded c tx).length = 255 * c.interleave.toNat := by simp [padded]; omega
  cases hr : c.removeParity
  · simp only [Bool.false_eq_true, if_false, Outcome.ret_bind]
    rw [if_neg (by omega)]
    have : (padded c tx).drop c.virtualFill = tx := by simp [padded]
    rw [this]
    split <;> rfl
  · have h32 := hvf hr
    have hrp : removeParity c (padded c tx) = .ret ((padded c tx).take (255 * c.interleave.toNat - c.interleave.toNat * 32)) := by
      simp only [removeParity, hpar, hp]
      rw [if_neg (by omega)]
    simp only [if_true, hrp, Outcome.ret_bind]
    rw [if_neg (by simp [hp]; omega)]
    have : ((padded c tx).take (255 * c.interleave.toNat - c.interleave.toNat * 32)).drop c.virtualFill
        = tx.take (tx.length - 32 * c.interleave.toNat) := by
      unfold padded
      rw [List.drop_take, List.drop_left' (by simp)]
      congr 1; omega
    rw [this]
    split <;> rfl

end RS
end Ccsds
