import Verif.Model.Summary
import Verif.Spec.Sequence
/-!
# C08 – C10: sequence gaps and the packet summary
-/
namespace Ccsds
open Spec

/-! ## C08  `missing_packets` is the modular sequence gap -/

/-- For valid ids, in both build profiles, `missing_packets` does not overflow and is `(cur - last - 1) mod 16384`. -/
theorem C08_gap (b : Build) (cur last : U16) (hc : cur.toNat ≤ 16383) (hl : last.toNat ≤ 16383) :
    ∃ m, missingPackets b cur last = .ret m ∧ m.toNat = gap 16384 cur.toNat last.toNat := by
  have hlast1 : (last + 1#16).toNat = last.toNat + 1 := by
    rw [BitVec.toNat_add]; simp; omega
  have h1 : b.add last 1 = .ret (last + 1) := by
    simp [Build.add]; intro _; omega
  unfold missingPackets
  rw [h1]
  simp only [Outcome.ret_bind, Outcome.pure_eq, PrimaryHeader.SEQ_MAX, BitVec.ofNat_eq_ofNat, gt_iff_lt, BitVec.lt_def,
    hlast1, BitVec.toNat_ofNat, Nat.reducePow, Nat.reduceMod]
  have hexp : (cur = if 16383 < last.toNat + 1 then 0#16 else last + 1#16) ↔ cur.toNat = (last.toNat + 1) % 16384 := by
    constructor
    · intro h; rw [h]; split
      · simp; omega
      · rw [hlast1]; omega
    · intro h; apply BitVec.eq_of_toNat_eq; rw [h]; split
      · simp; omega
      · rw [hlast1]; omega
  by_cases he : cur.toNat = (last.toNat + 1) % 16384
  · have he' := hexp.2 he
    rw [if_neg (by simpa using he')]
    refine ⟨0#16, rfl, ?_⟩
    simp only [BitVec.toNat_ofNat, gap]; omega
  · have he' : ¬ _ := fun h => he (hexp.1 h)
    rw [if_pos he']
    by_cases hlt : cur.toNat < last.toNat + 1
    · rw [if_pos hlt]
      have hs : (cur + 16383#16).toNat = cur.toNat + 16383 := by rw [BitVec.toNat_add]; simp; omega
      have a1 : b.add cur 16383#16 = .ret (cur + 16383#16) := by simp [Build.add]; intro _; omega
      have a2 : b.sub (cur + 16383#16) last = .ret (cur + 16383#16 - last) := by simp [Build.sub, hs]; intro _; omega
      refine ⟨_, by rw [a1]; simp only [Outcome.ret_bind]; exact a2, ?_⟩
      rw [BitVec.toNat_sub, hs]; simp only [gap]; omega
    · rw [if_neg hlt]
      have hs : (cur - last).toNat = cur.toNat - last.toNat := by rw [BitVec.toNat_sub]; omega
      have a1 : b.sub cur last = .ret (cur - last) := by simp [Build.sub]; intro _; omega
      have a2 : b.sub (cur - last) 1#16 = .ret (cur - last - 1#16) := by simp [Build.sub, hs]; intro _; omega
      refine ⟨_, by rw [a1]; simp only [Outcome.ret_bind]; exact a2, ?_⟩
      rw [BitVec.toNat_sub, hs]; simp only [gap, BitVec.toNat_ofNat]; omega

/-- Nothing is missing exactly when `cur` is the successor of `last`, with rollover; otherwise at most 16383 are. -/
theorem C08_zero_iff (b : Build) (cur last : U16) (hc : cur.toNat ≤ 16383) (hl : last.toNat ≤ 16383) :
    ∃ m, missingPackets b cur last = .ret m ∧ m.toNat ≤ 16383 ∧ (m.toNat = 0 ↔ cur.toNat = (last.toNat + 1) % 16384) := by
  obtain ⟨m, h1, h2⟩ := C08_gap b cur last hc hl
  refine ⟨m, h1, ?_, ?_⟩ <;> rw [h2] <;> unfold gap <;> omega

/-- Arguments that are no 14-bit ids: what is computed, and when that panics (in builds with overflow checks only). -/
theorem C08_any (b : Build) (cur last : U16) :
    (last.toNat = 65535 → missingPackets b cur last = if b.overflowChecks then .panic else .ret cur) ∧
    (last.toNat < 65535 → cur.toNat = (if last.toNat < 16383 then last.toNat + 1 else 0) → missingPackets b cur last = .ret 0#16) ∧
    (last.toNat < 65535 → cur.toNat ≠ (if last.toNat < 16383 then last.toNat + 1 else 0) →
      (last.toNat < cur.toNat → missingPackets b cur last = .ret (BitVec.ofNat 16 (cur.toNat - last.toNat - 1))) ∧
      (cur.toNat ≤ last.toNat → missingPackets b cur last =
        if b.overflowChecks ∧ (65536 ≤ cur.toNat + 16383 ∨ cur.toNat + 16383 < last.toNat) then .panic
        else .ret (BitVec.ofInt 16 ((cur.toNat : Int) + 16383 - last.toNat)))) := by
  refine ⟨fun h => ?_, fun h he => ?_, fun h hne => ?_⟩
  · have hl : last = 65535#16 := BitVec.eq_of_toNat_eq (by rw [h]; rfl)
    subst hl
    obtain ⟨b⟩ := b
    cases b with
    | true => rfl
    | false =>
      have a : Build.add ⟨false⟩ (65535#16) 1 = .ret 0#16 := by decide
      unfold missingPackets
      rw [a]
      have e : (if 0#16 > PrimaryHeader.SEQ_MAX then (0 : U16) else 0#16) = 0#16 := by decide
      simp only [Outcome.ret_bind, Bool.false_eq_true, if_false, e]
      by_cases hc : cur = 0#16
      · subst hc; rfl
      · rw [if_pos hc, if_neg (show ¬ (0#16 > cur) by rw [gt_iff_lt, BitVec.lt_def]; exact Nat.not_lt_zero _)]
        simp only [Build.sub, Bool.false_and, Bool.false_eq_true, if_false, Outcome.ret_bind]
        congr 1
        apply BitVec.eq_of_toNat_eq
        have := cur.isLt
        simp only [BitVec.toNat_sub, BitVec.toNat_ofNat, BitVec.ofNat_eq_ofNat]
        omega
  all_goals
    have hlast1 : (last + 1#16).toNat = last.toNat + 1 := by
      rw [BitVec.toNat_add]; simp; omega
    have h1 : b.add last 1 = .ret (last + 1) := by
      simp [Build.add]; intro _; omega
    have hexp : (cur = if 16383 < last.toNat + 1 then 0#16 else last + 1#16) ↔ cur.toNat = (if last.toNat < 16383 then last.toNat + 1 else 0) := by
      constructor
      · intro h; rw [h]; split
        · rw [if_neg (by omega)]; rfl
        · rw [if_pos (by omega), hlast1]
      · intro h; apply BitVec.eq_of_toNat_eq; rw [h]; split
        · rw [if_neg (by omega), hlast1]
        · rw [if_pos (by omega)]; rfl
    have hc := cur.isLt
    unfold missingPackets
    rw [h1]
    simp only [Outcome.ret_bind, Outcome.pure_eq, PrimaryHeader.SEQ_MAX, BitVec.ofNat_eq_ofNat, gt_iff_lt, BitVec.lt_def,
      hlast1, BitVec.toNat_ofNat, Nat.reducePow, Nat.reduceMod]
  · rw [if_neg (by simpa using hexp.2 he)]
  · rw [if_pos (show cur ≠ _ from fun e => hne (hexp.1 e))]
    constructor
    · intro hlt
      rw [if_neg (by omega)]
      have hs : (cur - last).toNat = cur.toNat - last.toNat := by rw [BitVec.toNat_sub]; omega
      have a1 : b.sub cur last = .ret (cur - last) := by simp [Build.sub]; intro _; omega
      have a2 : b.sub (cur - last) 1#16 = .ret (cur - last - 1#16) := by simp [Build.sub, hs]; intro _; omega
      rw [a1, Outcome.ret_bind, a2]
      congr 1
      apply BitVec.eq_of_toNat_eq
      rw [BitVec.toNat_sub, hs]; simp only [BitVec.toNat_ofNat]; omega
    · intro hle
      rw [if_pos (by omega)]
      have hl := last.isLt
      obtain ⟨b⟩ := b
      have hval : cur + 16383#16 - last = BitVec.ofInt 16 ((cur.toNat : Int) + 16383 - last.toNat) := by
        apply BitVec.eq_of_toNat_eq
        rw [BitVec.toNat_sub, BitVec.toNat_add, BitVec.toNat_ofInt]
        simp only [BitVec.toNat_ofNat]
        omega
      cases b with
      | false => simp only [Build.add, Build.sub, Bool.false_and, Bool.false_eq_true, if_false, Outcome.ret_bind, false_and, hval]
      | true =>
        simp only [Build.add, Build.sub, Bool.true_and, true_and, BitVec.toNat_ofNat, Nat.reducePow, Nat.reduceMod, decide_eq_true_eq]
        by_cases hov : 65536 ≤ cur.toNat + 16383
        · rw [if_pos hov, if_pos (.inl hov)]; rfl
        · have hs : (cur + 16383#16).toNat = cur.toNat + 16383 := by rw [BitVec.toNat_add]; simp; omega
          rw [if_neg hov, Outcome.ret_bind, hs]
          by_cases hun : cur.toNat + 16383 < last.toNat
          · rw [if_pos hun, if_pos (.inr hun)]
          · rw [if_neg hun, if_neg (by omega), hval]

example : missingPackets ⟨true⟩ 50000 60000 = .panic ∧ missingPackets ⟨false⟩ 50000 60000 = .ret 6383 ∧ missingPackets ⟨true⟩ 20000 16383 = .ret 3616 := by decide +kernel

/-- Rollover: 16383 followed by 0 is no gap, 16383 followed by 5 is a gap of 5; a repeated id is a gap of 16383. -/
example : missingPackets ⟨true⟩ 0 16383 = .ret 0 ∧ missingPackets ⟨true⟩ 5 16383 = .ret 5 ∧
    missingPackets ⟨false⟩ 7 7 = .ret 16383 := by decide +kernel

/-! ## C09, C10  `Summary` -/

/-- Sequence ids as decoded from a header are 14-bit numbers (C01). -/
def ValidIds (ps : List Packet) : Prop := ∀ p ∈ ps, p.header.sequenceId.toNat ≤ 16383

/-- The packets of one APID, in order. -/
def ofApid (ps : List Packet) (a : U16) : List Packet := ps.filter (fun p => p.header.apid == a)

/-- Their sequence ids, in order. -/
def seqIds (ps : List Packet) : List Nat := ps.map (fun p => p.header.sequenceId.toNat)

/-- Sum of the data lengths of packets. -/
def sumBytes (ps : List Packet) : Nat := (ps.map (fun p => p.data.length)).sum

theorem gapSum_snoc (n : Nat) (l : List Nat) (x : Nat) :
    gapSum n (l ++ [x]) = gapSum n l + (match l.getLast? with | some y => gap n x y | none => 0) := by
  induction l with
  | nil => rfl
  | cons a l ih =>
    cases l with
    | nil => simp [gapSum]
    | cons b l =>
      simp only [List.cons_append, gapSum] at ih ⊢
      rw [ih]
      simp only [List.getLast?_cons_cons]
      omega

/-- What the state knows after the packets `ps` have been added. -/
structure SummaryInv (ps : List Packet) (s : Summary) : Prop where
  count : s.count = ps.length
  bytes : s.bytes = sumBytes ps
  nodup : (HMap.keys s.apids).Nodup
  entry : ∀ a, s.apids.get? a = if ofApid ps a = [] then none else
    some ⟨(ofApid ps a).length, sumBytes (ofApid ps a), gapSum 16384 (seqIds (ofApid ps a))⟩
  seen : ∀ a, s.seenHeaders.get? a = (ofApid ps a).getLast?.map Packet.header
  sumCount : (s.apids.map (fun e => e.2.count)).sum = s.count
  sumBytes : (s.apids.map (fun e => e.2.bytes)).sum = s.bytes
  sumMissing : (s.apids.map (fun e => e.2.missing)).sum = s.missing

theorem ofApid_snoc (ps : List Packet) (p : Packet) (a : U16) :
    ofApid (ps ++ [p]) a = if p.header.apid = a then ofApid ps a ++ [p] else ofApid ps a := by
  simp only [ofApid, List.filter_append, List.filter_cons, List.filter_nil]
  split <;> simp_all

theorem summary_step (b : Build) (ps : List Packet) (s : Summary) (p : Packet) (hv : ValidIds (ps ++ [p]))
    (h : SummaryInv ps s) : ∃ s', Summary.add b s p = .ret s' ∧ SummaryInv (ps ++ [p]) s' := by
  have hentry := h.entry p.header.apid
  have hseen := h.seen p.header.apid
  have hsb : ∀ l, sumBytes (l ++ [p]) = sumBytes l + p.data.length := by
    intro l; simp [sumBytes]
  by_cases hf : ofApid ps p.header.apid = []
  · -- first packet of its APID
    rw [hf] at hentry hseen
    simp only [if_true] at hentry
    simp only [List.getLast?_nil, Option.map_none] at hseen
    refine ⟨_, by simp [Summary.add, hentry, hseen]; rfl, ?_⟩
    refine ⟨by simp [h.count], by simp [h.bytes, hsb], HMap.nodup_insert _ _ _ h.nodup, ?_, ?_, ?_, ?_, ?_⟩
    · intro a
      simp only [HMap.get?_insert, ofApid_snoc]
      by_cases ha : p.header.apid = a
      · subst ha
        simp [hf, sumBytes, seqIds, gapSum]
      · simp only [ha, if_false]; exact h.entry a
    · intro a
      simp only [HMap.get?_insert, ofApid_snoc]
      by_cases ha : p.header.apid = a
      · subst ha; simp [hf]
      · simp only [ha, if_false]; exact h.seen a
    · have := HMap.sum_insert s.apids ApidSummary.count p.header.apid ⟨1, p.data.length, 0⟩
      rw [hentry] at this
      simp only [Option.map_none, Option.getD_none] at this
      have := h.sumCount
      simp only; omega
    · have := HMap.sum_insert s.apids ApidSummary.bytes p.header.apid ⟨1, p.data.length, 0⟩
      rw [hentry] at this
      simp only [Option.map_none, Option.getD_none] at this
      have := h.sumBytes
      simp only; omega
    · have := HMap.sum_insert s.apids ApidSummary.missing p.header.apid ⟨1, p.data.length, 0⟩
      rw [hentry] at this
      simp only [Option.map_none, Option.getD_none] at this
      have := h.sumMissing
      simp only; omega
  · simp only [hf, if_false] at hentry
    obtain ⟨q, hq⟩ : ∃ q, (ofApid ps p.header.apid).getLast? = some q := by
      cases hl : (ofApid ps p.header.apid).getLast? with
      | none => rw [List.getLast?_eq_none_iff] at hl; exact absurd hl hf
      | some q => exact ⟨q, rfl⟩
    rw [hq] at hseen
    simp only [Option.map_some] at hseen
    have hqm : q ∈ ps := by
      have := List.mem_of_getLast? hq
      exact (List.mem_filter.1 this).1
    obtain ⟨m, hm, hmv⟩ := C08_gap b p.header.sequenceId q.header.sequenceId (hv p (by simp)) (hv q (by simp [hqm]))
    refine ⟨_, by simp [Summary.add, hentry, hseen, hm]; rfl, ?_⟩
    refine ⟨by simp [h.count], by simp [h.bytes, hsb], HMap.nodup_insert _ _ _ h.nodup, ?_, ?_, ?_, ?_, ?_⟩
    · intro a
      simp only [HMap.get?_insert, ofApid_snoc]
      by_cases ha : p.header.apid = a
      · subst ha
        simp only [if_true, hsb]
        rw [if_neg (by simp)]
        simp only [seqIds, List.map_append, List.map_cons, List.map_nil, gapSum_snoc, List.getLast?_map, hq,
          Option.map_some, List.length_append, List.length_cons, List.length_nil, hmv]
      · simp only [ha, if_false]; exact h.entry a
    · intro a
      simp only [HMap.get?_insert, ofApid_snoc]
      by_cases ha : p.header.apid = a
      · subst ha; simp
      · simp only [ha, if_false]; exact h.seen a
    · have := HMap.sum_insert s.apids ApidSummary.count p.header.apid
        ⟨(ofApid ps p.header.apid).length + 1, Ccsds.sumBytes (ofApid ps p.header.apid) + p.data.length,
          gapSum 16384 (seqIds (ofApid ps p.header.apid)) + m.toNat⟩
      rw [hentry] at this
      simp only [Option.map_some, Option.getD_some] at this
      have := h.sumCount
      simp only; omega
    · have := HMap.sum_insert s.apids ApidSummary.bytes p.header.apid
        ⟨(ofApid ps p.header.apid).length + 1, Ccsds.sumBytes (ofApid ps p.header.apid) + p.data.length,
          gapSum 16384 (seqIds (ofApid ps p.header.apid)) + m.toNat⟩
      rw [hentry] at this
      simp only [Option.map_some, Option.getD_some] at this
      have := h.sumBytes
      simp only; omega
    · have := HMap.sum_insert s.apids ApidSummary.missing p.header.apid
        ⟨(ofApid ps p.header.apid).length + 1, Ccsds.sumBytes (ofApid ps p.header.apid) + p.data.length,
          gapSum 16384 (seqIds (ofApid ps p.header.apid)) + m.toNat⟩
      rw [hentry] at this
      simp only [Option.map_some, Option.getD_some] at this
      have := h.sumMissing
      simp only; omega

theorem summary_inv (b : Build) (rest done : List Packet) (s : Summary) (hv : ValidIds (done ++ rest))
    (h : SummaryInv done s) : ∃ s', Summary.addAll b s rest = .ret s' ∧ SummaryInv (done ++ rest) s' := by
  induction rest generalizing done s with
  | nil => exact ⟨s, rfl, by simpa using h⟩
  | cons p rest ih =>
    obtain ⟨s1, h1, i1⟩ := summary_step b done s p (fun q hq => hv q (by simp at hq ⊢; rcases hq with h | h <;> simp [h])) h
    obtain ⟨s2, h2, i2⟩ := ih (done ++ [p]) s1 (by simpa using hv) i1
    refine ⟨s2, by simp [Summary.addAll, h1, h2], by simpa using i2⟩

theorem summary_init : SummaryInv [] Summary.default := by
  refine ⟨rfl, rfl, ?_, ?_, ?_, rfl, rfl, rfl⟩ <;> simp [Summary.default, ofApid, HMap.keys]

/-- After adding any packets (with valid sequence ids) no panic has occurred; the totals are the number of packets and the
sum of their data lengths; an APID has an entry exactly if one of its packets was added, with the same numbers for its
packets; and the totals are the sums over the APIDs. -/
theorem C09_totals (b : Build) (ps : List Packet) (hv : ValidIds ps) :
    ∃ s, Summary.addAll b Summary.default ps = .ret s ∧
      s.count = ps.length ∧ s.bytes = sumBytes ps ∧
      (∀ a, (∃ e, s.apids.get? a = some e) ↔ ∃ p ∈ ps, p.header.apid = a) ∧
      (∀ a e, s.apids.get? a = some e → e.count = (ofApid ps a).length ∧ e.bytes = sumBytes (ofApid ps a)) ∧
      (HMap.keys s.apids).Nodup ∧
      s.count = (s.apids.map (fun e => e.2.count)).sum ∧
      s.bytes = (s.apids.map (fun e => e.2.bytes)).sum ∧
      s.missing = (s.apids.map (fun e => e.2.missing)).sum := by
  obtain ⟨s, h, i⟩ := summary_inv b ps [] Summary.default (by simpa using hv) summary_init
  simp only [List.nil_append] at i
  refine ⟨s, h, i.count, i.bytes, fun a => ?_, fun a e he => ?_, i.nodup, i.sumCount.symm, i.sumBytes.symm, i.sumMissing.symm⟩
  · rw [i.entry a]
    constructor
    · rintro ⟨e, he⟩
      split at he
      · cases he
      · rename_i hne
        obtain ⟨p, hp⟩ := List.exists_mem_of_ne_nil _ hne
        exact ⟨p, by simpa [ofApid] using List.mem_filter.1 hp⟩
    · rintro ⟨p, hp, rfl⟩
      rw [if_neg]
      · exact ⟨_, rfl⟩
      · intro hnil
        have : p ∈ ofApid ps p.header.apid := List.mem_filter.2 ⟨hp, by simp⟩
        rw [hnil] at this; cases this
  · rw [i.entry a] at he
    split at he
    · cases he
    · injection he with he; subst he; exact ⟨rfl, rfl⟩

/-- An APID's `missing` is the sum of the modular gaps between consecutive packets of that APID: packets of other APIDs and
the way the APIDs are interleaved do not matter. -/
theorem C10_missing (b : Build) (ps : List Packet) (hv : ValidIds ps) :
    ∃ s, Summary.addAll b Summary.default ps = .ret s ∧
      ∀ a e, s.apids.get? a = some e → e.missing = gapSum 16384 (seqIds (ofApid ps a)) := by
  obtain ⟨s, h, i⟩ := summary_inv b ps [] Summary.default (by simpa using hv) summary_init
  simp only [List.nil_append] at i
  refine ⟨s, h, fun a e he => ?_⟩
  rw [i.entry a] at he
  split at he
  · cases he
  · injection he with he; subst he; rfl

/-! Loss patterns -/

theorem received_tail {n a : Nat} {l : List Nat} (h : Received n (a :: l)) : Received n l := by
  cases l with
  | nil => trivial
  | cons b l => exact h.2.2

theorem received_lt {n a : Nat} {l : List Nat} (h : Received n (a :: l)) : ∀ x ∈ l, a < x := by
  induction l generalizing a with
  | nil => simp
  | cons b l ih =>
    intro x hx
    rcases List.mem_cons.1 hx with rfl | hx
    · exact h.1
    · exact Nat.lt_trans h.1 (ih h.2.2 x hx)

/-- For wrapped counters of received packets the gaps add up to the numbers between the first and the last received,
minus those received. -/
theorem gapSum_eq (n a : Nat) (l : List Nat) (h : Received n (a :: l)) :
    gapSum n ((a :: l).map (· % n)) + (a :: l).length = (l.getLast?.getD a) + 1 - a ∧ a ≤ l.getLast?.getD a := by
  induction l generalizing a with
  | nil => simp [gapSum]
  | cons b l ih =>
    obtain ⟨h1, h2, h3⟩ := h
    obtain ⟨ih1, ih2⟩ := ih b h3
    have hg : gap n (b % n) (a % n) = b - a - 1 := by
      unfold gap
      have hn : 0 < n := by omega
      have ha := Nat.mod_lt a hn
      have hb := Nat.mod_lt b hn
      have e1 := Nat.div_add_mod a n
      have e2 := Nat.div_add_mod b n
      have hd : b / n = a / n ∨ b / n = a / n + 1 := by
        have lo : a / n ≤ b / n := Nat.div_le_div_right (by omega)
        have hi : b / n ≤ (a + n) / n := Nat.div_le_div_right h2
        rw [Nat.add_div_right _ hn] at hi
        omega
      rcases hd with hd | hd
      · have : n * (b / n) = n * (a / n) := by rw [hd]
        rw [show b % n + n - a % n - 1 = (b - a - 1) + n by omega, Nat.add_mod_right, Nat.mod_eq_of_lt (by omega)]
      · have : n * (b / n) = n * (a / n) + n := by rw [hd, Nat.mul_add, Nat.mul_one]
        rw [show b % n + n - a % n - 1 = b - a - 1 by omega, Nat.mod_eq_of_lt (by omega)]
    simp only [List.map_cons, gapSum, List.length_cons] at ih1 ⊢
    rw [hg]
    have hl : (b :: l).getLast?.getD a = l.getLast?.getD b := by
      cases l <;> simp [List.getLast?_cons]
    rw [hl]
    omega

theorem filter_notin_length (l ks : List Nat) (hl : l.Nodup) (hk : ks.Nodup) (hsub : ∀ k ∈ ks, k ∈ l) :
    (l.filter (fun k => !ks.contains k)).length + ks.length = l.length := by
  have h1 : (l.filter (fun k => !ks.contains k)).length + (l.filter (fun k => ks.contains k)).length = l.length := by
    clear hl hsub hk
    induction l with
    | nil => rfl
    | cons x l ih =>
      simp only [List.filter_cons]
      by_cases h : ks.contains x
      · simp only [h, Bool.not_true, if_true, List.length_cons]
        have : ((false = true) = False) := by simp
        simp only [Bool.false_eq_true, if_false]
        omega
      · simp only [h, Bool.not_false, if_true, List.length_cons, Bool.false_eq_true, if_false]
        simp at h
        omega
  have h2 : (l.filter (fun k => ks.contains k)).Perm ks := by
    rw [List.perm_ext_iff_of_nodup (hl.filter _) hk]
    intro a
    simp only [List.mem_filter, List.contains_iff_mem]
    exact ⟨fun h => h.2, fun h => ⟨hsub a h, h⟩⟩
  rw [h2.length_eq] at h1
  exact h1

/-- If what was received of an APID are the packets numbered `ks` (absolute numbers; the sequence id on the wire is the
number modulo 16384), with fewer than 16384 lost in a row, then the gaps add up to exactly the number of lost packets. -/
theorem C10_lost (ks : List Nat) (h : Received 16384 ks) : gapSum 16384 (ks.map (· % 16384)) = lost ks := by
  cases ks with
  | nil => rfl
  | cons a l =>
    obtain ⟨h1, h2⟩ := gapSum_eq 16384 a l h
    have hlast : (a :: l).getLast? = some (l.getLast?.getD a) := by cases l <;> simp [List.getLast?_cons]
    simp only [lost, List.head?_cons, hlast]
    have hnd : ∀ (l : List Nat) (a : Nat), Received 16384 (a :: l) → (a :: l).Nodup := by
      intro l
      induction l with
      | nil => simp
      | cons b l ih =>
        intro a h
        rw [List.nodup_cons]
        exact ⟨fun hm => Nat.lt_irrefl _ (received_lt h a hm), ih b h.2.2⟩
    have hle : ∀ (l : List Nat) (a : Nat), Received 16384 (a :: l) → ∀ x ∈ a :: l, a ≤ x ∧ x ≤ l.getLast?.getD a := by
      intro l
      induction l with
      | nil => simp
      | cons b l ih =>
        intro a h x hx
        have hl : (b :: l).getLast?.getD a = l.getLast?.getD b := by
          cases l <;> simp [List.getLast?_cons]
        rw [hl]
        have hb := ih b h.2.2 b List.mem_cons_self
        rcases List.mem_cons.1 hx with rfl | hx
        · have := h.1; omega
        · have := ih b h.2.2 x hx
          have := h.1; omega
    have := filter_notin_length (List.range' a (l.getLast?.getD a + 1 - a)) (a :: l) List.nodup_range' (hnd l a h)
      (fun k hk => by
        have := hle l a h k hk
        rw [List.mem_range'_1]; omega)
    rw [List.length_range'] at this
    omega

/-- The two statements put together for the library's result. -/
theorem C10_summary_counts_losses (b : Build) (ps : List Packet) (hv : ValidIds ps) (a : U16) (ks : List Nat)
    (hks : seqIds (ofApid ps a) = ks.map (· % 16384)) (hr : Received 16384 ks) :
    ∃ s, Summary.addAll b Summary.default ps = .ret s ∧
      ∀ e, s.apids.get? a = some e → e.missing = lost ks := by
  obtain ⟨s, h, hm⟩ := C10_missing b ps hv
  exact ⟨s, h, fun e he => by rw [hm a e he, hks, C10_lost ks hr]⟩

/-- Numbers 16382, 16383, 16385, 16390 of an APID received (ids 16382, 16383, 1, 6): five lost, over a rollover. -/
example : Received 16384 [16382, 16383, 16385, 16390] ∧ lost [16382, 16383, 16385, 16390] = 5 ∧
    gapSum 16384 [16382, 16383, 1, 6] = 5 := by
  refine ⟨by simp [Received], ?_⟩; decide +kernel

/-- Two interleaved APIDs; APID 5 loses one packet at the rollover. -/
example : ∃ s, Summary.addAll ⟨true⟩ Summary.default
    [⟨⟨0, 0, false, 5, 3, 16383, 0⟩, [0, 5, 0xff, 0xff, 0, 0, 0xab], 0⟩,
     ⟨⟨0, 0, false, 9, 3, 100, 0⟩, [0, 9, 0xc0, 100, 0, 0, 0xab], 7⟩,
     ⟨⟨0, 0, false, 5, 3, 1, 0⟩, [0, 5, 0xc0, 1, 0, 0, 0xab], 14⟩] = .ret s ∧
    s.missing = 1 ∧ s.apids.get? 5 = some ⟨2, 14, 1⟩ ∧ s.apids.get? 9 = some ⟨1, 7, 0⟩ := by
  refine ⟨_, rfl, ?_⟩; decide +kernel

end Ccsds
