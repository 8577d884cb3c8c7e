import Verif.Props.Info
import Mathlib.Data.Nat.ModEq
/-!
# C141: packets received again, or late, in the counts
-/
namespace Ccsds
open Spec

/-! ## Specification -/

/-- `ks` are the absolute (never wrapping) numbers of the packets received, in the order of their reception, which may be any: never more than `n` ahead of the one before, and never `n`
or more behind it. -/
def Nearby (n : Nat) : List Nat → Prop
  | a :: b :: l => b ≤ a + n ∧ a < b + n ∧ Nearby n (b :: l)
  | _ => True

/-- How often a packet is not later than the one received before it: it is received again, or was overtaken. -/
def setbacks : List Nat → Nat
  | a :: b :: l => (if b ≤ a then 1 else 0) + setbacks (b :: l)
  | _ => 0

/-! ## Proof -/

theorem gap_step {n a b : Nat} (hn : 0 < n) (h1 : b ≤ a + n) (h2 : a < b + n) : gap n (b % n) (a % n) + a + 1 = b + n * (if b ≤ a then 1 else 0) := by
  unfold gap
  have hb := Nat.mod_lt b hn
  have ha := Nat.mod_lt a hn
  have key : (b % n + n - a % n - 1) % n = if b ≤ a then b + n - a - 1 else b - a - 1 := by
    have hm : (b % n + n - a % n - 1) ≡ (if b ≤ a then b + n - a - 1 else b - a - 1) [MOD n] := by
      have e : (b % n + n - a % n - 1) + (a + 1) ≡ (if b ≤ a then b + n - a - 1 else b - a - 1) + (a + 1) [MOD n] := by
        have l1 : (b % n + n - a % n - 1) + (a + 1) ≡ (b % n + n - a % n - 1) + (a % n + 1) [MOD n] :=
          Nat.ModEq.add_left _ (Nat.ModEq.add_right _ (Nat.mod_modEq a n).symm)
        have l2 : (b % n + n - a % n - 1) + (a % n + 1) = b % n + n := by omega
        rw [l2] at l1
        refine l1.trans ?_
        have l3 : b % n + n ≡ b [MOD n] := by
          simp [Nat.ModEq]
        refine l3.trans ?_
        split
        · have : b + n - a - 1 + (a + 1) = b + n := by omega
          rw [this]
          simp [Nat.ModEq]
        · have : b - a - 1 + (a + 1) = b := by omega
          rw [this]
      exact Nat.ModEq.add_right_cancel' _ e
    rw [hm]
    apply Nat.mod_eq_of_lt
    split <;> omega
  rw [key]
  split <;> omega

theorem gapSum_heard {n : Nat} (hn : 0 < n) (l : List Nat) : ∀ a, Nearby n (a :: l) →
    gapSum n ((a :: l).map (· % n)) + (a :: l).length + a = (a :: l).getLast (by simp) + 1 + n * setbacks (a :: l) := by
  induction l with
  | nil => intro a _; simp [gapSum, setbacks]; omega
  | cons b l ih =>
    intro a h
    have h1 := gap_step hn h.1 h.2.1
    have h2 := ih b h.2.2
    simp only [List.map_cons, gapSum, List.length_cons, setbacks] at h2 ⊢
    rw [List.getLast_cons (by simp), Nat.mul_add]
    omega

/-- C141: what `Summary` and `info` count when packets of an APID are received again or out of order, whichever way: counting the received and the missing packets, one gets the numbers from the
first to the last received, plus 16384 for every setback. -/
theorem C141_exact (b : Build) (τ : Epoch → Int) (cds : Bool) (bs : List U8) (r : Reader) (ps : List Packet) (hd : r.Delivers bs) (hps : Decodes r ps) (a : U16)
    (k : Nat) (ks : List Nat) (hks : seqIds (ofApid ps a) = (k :: ks).map (· % 16384)) (hh : Nearby 16384 (k :: ks)) :
    (∃ s e, Summary.addAll b Summary.default ps = .ret s ∧ s.apids.get? a = some e ∧ e.count = (k :: ks).length ∧
      e.missing + e.count + k = (k :: ks).getLast (by simp) + 1 + 16384 * setbacks (k :: ks)) ∧
    ∃ i s, (∀ res, Info.Runs b τ cds r res ↔ res = some i) ∧ (∀ s', (a, s') ∈ i.apids ↔ s' = s) ∧ s.total = (k :: ks).length ∧
      s.missing + s.total + k = (k :: ks).getLast (by simp) + 1 + 16384 * setbacks (k :: ks) := by
  have hv : ValidIds ps := wellFormed_validIds (decodes_wellFormed hd hps)
  obtain ⟨s, h1, _, _, h2, h3, _⟩ := C09_totals b ps hv
  obtain ⟨s', h1', h4⟩ := C10_missing b ps hv
  rw [h1] at h1'
  cases h1'
  have hlen : (ofApid ps a).length = (k :: ks).length := by
    have := congrArg List.length hks
    simpa [seqIds] using this
  have hex : ∃ p ∈ ps, p.header.apid = a := by
    cases hp : ofApid ps a with
    | nil => rw [hp] at hlen; simp at hlen
    | cons p rest =>
      have hm : p ∈ ofApid ps a := by rw [hp]; simp
      have := List.mem_filter.1 hm
      exact ⟨p, this.1, by simpa using this.2⟩
  have hg := gapSum_heard (n := 16384) (by decide) ks k hh
  refine ⟨?_, ?_⟩
  · obtain ⟨e, he⟩ := (h2 a).2 hex
    have hc : e.count = (k :: ks).length := (h3 a e he).1.trans hlen
    refine ⟨s, e, h1, he, hc, ?_⟩
    rw [h4 a e he, hks, hc]
    exact hg
  · obtain ⟨i, hi, hu⟩ := C56_info b τ cds bs r ps hd hps
    obtain ⟨x, hx⟩ := (hi.present a).2 hex
    obtain ⟨e1, e2, _⟩ := hi.each a x hx
    refine ⟨i, x, hu, fun s' => ⟨fun hs => ?_, fun hs => hs ▸ hx⟩, e1.trans hlen, ?_⟩
    · obtain ⟨m, hm, em⟩ := List.getElem_of_mem hs
      obtain ⟨n, hn, en⟩ := List.getElem_of_mem hx
      have hasc := List.pairwise_iff_getElem.1 hi.ascending
      rcases Nat.lt_trichotomy m n with h | h | h
      · have := hasc m n hm hn h
        rw [em, en] at this
        exact absurd this (by simp)
      · subst h
        rw [em] at en
        exact congrArg Prod.snd en
      · have := hasc n m hn hm h
        rw [em, en] at this
        exact absurd this (by simp)
    · rw [e2, hks, e1, hlen]
      exact hg

/-- A recording of `n` packets, consecutively numbered, played twice: nothing is lost, and 16384 - n packets are reported missing. -/
theorem C141_twice (b : Build) (τ : Epoch → Int) (cds : Bool) (bs : List U8) (r : Reader) (ps : List Packet) (hd : r.Delivers bs) (hps : Decodes r ps) (a : U16)
    (k n : Nat) (hn : 0 < n) (hn' : n ≤ 16384) (hks : seqIds (ofApid ps a) = (List.range' k n ++ List.range' k n).map (· % 16384)) :
    ∃ i s, (∀ res, Info.Runs b τ cds r res ↔ res = some i) ∧ (∀ s', (a, s') ∈ i.apids ↔ s' = s) ∧ s.total = 2 * n ∧ s.missing = 16384 - n := by
  have run : ∀ (m j : Nat) (x : Nat) (l : List Nat), Nearby 16384 (x :: l) → x ≤ j + m → j + m < x + 16384 → Nearby 16384 (List.range' j (m + 1) ++ x :: l) ∧
      setbacks (List.range' j (m + 1) ++ x :: l) = (if x ≤ j + m then 1 else 0) + setbacks (x :: l) := by
    intro m
    induction m with
    | zero => intro j x l h h1 h2; exact ⟨⟨by omega, by omega, h⟩, rfl⟩
    | succ m ih =>
      intro j x l h h1 h2
      obtain ⟨i1, i2⟩ := ih (j + 1) x l h (by omega) (by omega)
      rw [List.range'_succ] at i1 i2
      rw [List.range'_succ, List.range'_succ]
      refine ⟨⟨by omega, by omega, i1⟩, ?_⟩
      show (if j + 1 ≤ j then 1 else 0) + setbacks ((j + 1) :: (List.range' (j + 1 + 1) m ++ x :: l)) = _
      have e : setbacks ((j + 1) :: (List.range' (j + 1 + 1) m ++ x :: l)) = (if x ≤ j + 1 + m then 1 else 0) + setbacks (x :: l) := i2
      rw [e, if_neg (by omega), if_pos (by omega), if_pos (by omega), Nat.zero_add]
  have single : ∀ (m j : Nat), Nearby 16384 (List.range' j (m + 1)) ∧ setbacks (List.range' j (m + 1)) = 0 := by
    intro m
    induction m with
    | zero => intro j; exact ⟨trivial, rfl⟩
    | succ m ih =>
      intro j
      obtain ⟨i1, i2⟩ := ih (j + 1)
      rw [List.range'_succ] at i1 i2
      rw [List.range'_succ, List.range'_succ]
      refine ⟨⟨by omega, by omega, i1⟩, ?_⟩
      show (if j + 1 ≤ j then 1 else 0) + setbacks ((j + 1) :: List.range' (j + 1 + 1) m) = 0
      rw [i2, if_neg (by omega)]
  obtain ⟨m, rfl⟩ : ∃ m, n = m + 1 := ⟨n - 1, by omega⟩
  obtain ⟨s1, s2⟩ := single m k
  rw [List.range'_succ] at s1 s2
  obtain ⟨t1, t2⟩ := run m k k _ s1 (by omega) (by omega)
  rw [← List.range'_succ] at s2 t1 t2
  rw [s2, if_pos (by omega)] at t2
  have e : List.range' k (m + 1) ++ List.range' k (m + 1) = k :: (List.range' (k + 1) m ++ List.range' k (m + 1)) := by rw [List.range'_succ, List.cons_append]
  have hlast : ∀ h, (List.range' k (m + 1) ++ List.range' k (m + 1)).getLast h = k + m := by
    intro h
    rw [List.getLast_append_of_ne_nil (by simp) (by simp), List.getLast_range']
    omega
  have hlen : (List.range' k (m + 1) ++ List.range' k (m + 1)).length = 2 * (m + 1) := by simp; omega
  rw [e] at hks t1 t2 hlen
  obtain ⟨i, s, h0, h1, h2, h3⟩ := (C141_exact b τ cds bs r ps hd hps a _ _ hks t1).2
  refine ⟨i, s, h0, h1, h2.trans hlen, ?_⟩
  have hl : (k :: (List.range' (k + 1) m ++ List.range' k (m + 1))).getLast (by simp) = k + m := by
    have := hlast (by simp)
    simp only [e] at this
    exact this
  rw [t2, h2, hlen, hl] at h3
  omega

/-- If every number from the first to the last was received once, in some order, every setback is reported as 16384 missing packets. -/
theorem C141_reordered (b : Build) (τ : Epoch → Int) (cds : Bool) (bs : List U8) (r : Reader) (ps : List Packet) (hd : r.Delivers bs) (hps : Decodes r ps) (a : U16)
    (k n : Nat) (ks : List Nat) (hks : seqIds (ofApid ps a) = (k :: ks).map (· % 16384)) (hh : Nearby 16384 (k :: ks)) (hp : (k :: ks).Perm (List.range' k (n + 1)))
    (hl : (k :: ks).getLast (by simp) = k + n) :
    ∃ i s, (∀ res, Info.Runs b τ cds r res ↔ res = some i) ∧ (∀ s', (a, s') ∈ i.apids ↔ s' = s) ∧ s.total = n + 1 ∧ s.missing = 16384 * setbacks (k :: ks) := by
  obtain ⟨i, s, h0, h1, h2, h3⟩ := (C141_exact b τ cds bs r ps hd hps a _ _ hks hh).2
  have hlen := hp.length_eq
  rw [List.length_range'] at hlen
  refine ⟨i, s, h0, h1, h2.trans hlen, ?_⟩
  rw [hl, h2, hlen] at h3
  omega

/-- C141, the full statement: the missing packets that `info` reports for an APID are those of the numbers from the first to the last that were not received, also if some were received again. -/
def C141_full : Prop := ∀ (b : Build) (τ : Epoch → Int) (cds : Bool) (bs : List U8) (r : Reader) (ps : List Packet) (a : U16) (k : Nat) (ks : List Nat),
    r.Delivers bs → Decodes r ps → seqIds (ofApid ps a) = (k :: ks).map (· % 16384) → Nearby 16384 (k :: ks) →
    (∀ x ∈ k :: ks, k ≤ x ∧ x ≤ (k :: ks).getLast (by simp)) → ∀ i, Info.Runs b τ cds r (some i) → ∀ s, (a, s) ∈ i.apids → s.missing = lost (k :: ks)

theorem received_of_nearby {n : Nat} (l : List Nat) : ∀ a, Nearby n (a :: l) → setbacks (a :: l) = 0 → Received n (a :: l) := by
  induction l with
  | nil => intro a _ _; trivial
  | cons b l ih =>
    intro a h hs
    unfold setbacks at hs
    have h1 : ¬ b ≤ a := by intro h1; rw [if_pos h1] at hs; omega
    exact ⟨by omega, h.1, ih b h.2.2 (by omega)⟩

/-- C141 for recordings without setbacks. -/
theorem C141_partial (b : Build) (τ : Epoch → Int) (cds : Bool) (bs : List U8) (r : Reader) (ps : List Packet) (a : U16) (k : Nat) (ks : List Nat) (hd : r.Delivers bs)
    (hps : Decodes r ps) (hks : seqIds (ofApid ps a) = (k :: ks).map (· % 16384)) (hh : Nearby 16384 (k :: ks)) (hs : setbacks (k :: ks) = 0) (i : Info.Info)
    (hi : Info.Runs b τ cds r (some i)) (s : Info.ISummary) (hm : (a, s) ∈ i.apids) : s.missing = lost (k :: ks) := by
  obtain ⟨j, hj, hu⟩ := C56_info b τ cds bs r ps hd hps
  cases (hu _).1 hi
  rw [(hj.each a s hm).2.1, hks, C10_lost _ (received_of_nearby ks k hh hs)]

/-! ## A concrete case

A packet is received, then the next one twice. -/
namespace LateEx
def bytes (x : U8) : List U8 := [0x00#8, 0x05#8, 0xc0#8, x, 0x00#8, 0x00#8, 7#8]
def pkt (x : U8) (seq : U16) (off : Nat) : Packet := ⟨⟨0#8, 0#8, false, 5#16, 3#8, seq, 0#16⟩, bytes x, off⟩
def stream : List U8 := bytes 0#8 ++ bytes 1#8 ++ bytes 1#8
theorem delivers : (Reader.ofBytes stream).Delivers stream := by
  refine ⟨?_, by simp [evBytes, Ev.bytes, Reader.ofBytes], rfl⟩
  intro e he
  simp only [Reader.ofBytes, List.mem_cons, List.not_mem_nil, or_false] at he
  subst he
  exact .inl ⟨stream, by decide, rfl⟩
theorem decodes : Decodes (Reader.ofBytes stream) [pkt 0#8 0#16 0, pkt 1#8 1#16 7, pkt 1#8 1#16 14] := ⟨_, .step rfl (.step rfl (.step rfl (.done rfl)))⟩
theorem near : Nearby 16384 [0, 1, 1] := ⟨by omega, by omega, by omega, by omega, trivial⟩

example (b : Build) (τ : Epoch → Int) : ∃ i s, (∀ res, Info.Runs b τ false (Reader.ofBytes stream) res ↔ res = some i) ∧ (∀ s', (5#16, s') ∈ i.apids ↔ s' = s) ∧ s.total = 3 ∧
    s.missing + s.total + 0 = 1 + 1 + 16384 * 1 :=
  (C141_exact b τ false _ _ _ delivers decodes 5#16 0 [1, 1] (by decide) near).2

/-- The whole recording twice. -/
def twice : List U8 := bytes 0#8 ++ bytes 1#8 ++ bytes 0#8 ++ bytes 1#8
theorem twiceDelivers : (Reader.ofBytes twice).Delivers twice := by
  refine ⟨?_, by simp [evBytes, Ev.bytes, Reader.ofBytes], rfl⟩
  intro e he
  simp only [Reader.ofBytes, List.mem_cons, List.not_mem_nil, or_false] at he
  subst he
  exact .inl ⟨twice, by decide, rfl⟩
theorem twiceDecodes : Decodes (Reader.ofBytes twice) [pkt 0#8 0#16 0, pkt 1#8 1#16 7, pkt 0#8 0#16 14, pkt 1#8 1#16 21] :=
  ⟨_, .step rfl (.step rfl (.step rfl (.step rfl (.done rfl))))⟩
example (b : Build) (τ : Epoch → Int) : ∃ i s, (∀ res, Info.Runs b τ true (Reader.ofBytes twice) res ↔ res = some i) ∧ (∀ s', (5#16, s') ∈ i.apids ↔ s' = s) ∧ s.total = 4 ∧
    s.missing = 16382 :=
  C141_twice b τ true _ _ _ twiceDelivers twiceDecodes 5#16 0 2 (by omega) (by omega) (by decide)

/-- The second and third of four packets in the wrong order. -/
def swapped : List U8 := bytes 0#8 ++ bytes 2#8 ++ bytes 1#8 ++ bytes 3#8
theorem swappedDelivers : (Reader.ofBytes swapped).Delivers swapped := by
  refine ⟨?_, by simp [evBytes, Ev.bytes, Reader.ofBytes], rfl⟩
  intro e he
  simp only [Reader.ofBytes, List.mem_cons, List.not_mem_nil, or_false] at he
  subst he
  exact .inl ⟨swapped, by decide, rfl⟩
theorem swappedDecodes : Decodes (Reader.ofBytes swapped) [pkt 0#8 0#16 0, pkt 2#8 2#16 7, pkt 1#8 1#16 14, pkt 3#8 3#16 21] :=
  ⟨_, .step rfl (.step rfl (.step rfl (.step rfl (.done rfl))))⟩
example (b : Build) (τ : Epoch → Int) : ∃ i s, (∀ res, Info.Runs b τ true (Reader.ofBytes swapped) res ↔ res = some i) ∧ (∀ s', (5#16, s') ∈ i.apids ↔ s' = s) ∧ s.total = 3 + 1 ∧
    s.missing = 16384 * 1 :=
  C141_reordered b τ true _ _ _ swappedDelivers swappedDecodes 5#16 0 3 [2, 1, 3] (by decide) ⟨by omega, by omega, by omega, by omega, by omega, by omega, trivial⟩
    (List.Perm.cons _ (List.Perm.swap 1 2 [3])) rfl

/-- Without the repetition. -/
theorem onceDelivers : (Reader.ofBytes (bytes 0#8 ++ bytes 2#8)).Delivers (bytes 0#8 ++ bytes 2#8) := by
  refine ⟨?_, by simp [evBytes, Ev.bytes, Reader.ofBytes], rfl⟩
  intro e he
  simp only [Reader.ofBytes, List.mem_cons, List.not_mem_nil, or_false] at he
  subst he
  exact .inl ⟨_, by decide, rfl⟩
example (b : Build) (τ : Epoch → Int) (i : Info.Info) (hi : Info.Runs b τ true (Reader.ofBytes (bytes 0#8 ++ bytes 2#8)) (some i)) (s : Info.ISummary) (hm : (5#16, s) ∈ i.apids) :
    s.missing = 1 :=
  C141_partial b τ true _ _ [pkt 0#8 0#16 0, pkt 2#8 2#16 7] 5#16 0 [2] onceDelivers ⟨_, .step rfl (.step rfl (.done rfl))⟩ (by decide) ⟨by omega, by omega, trivial⟩ rfl i hi s hm

/-- Nothing was lost, and 16383 packets are reported missing. -/
theorem C141_violated : ¬ C141_full := by
  intro h
  obtain ⟨i, s, hu, hs, h2, h3⟩ := (C141_exact ⟨true⟩ (fun e => e.nanos) false _ _ _ delivers decodes 5#16 0 [1, 1] (by decide) near).2
  have := h ⟨true⟩ (fun e => e.nanos) false _ _ _ 5#16 0 [1, 1] delivers decodes (by decide) near (by decide) i ((hu _).2 rfl) s ((hs s).2 rfl)
  have e : lost [0, 1, 1] = 0 := by decide
  have e1 : setbacks [0, 1, 1] = 1 := rfl
  have e2 : ([0, 1, 1] : List Nat).getLast (by simp) = 1 := rfl
  have e3 : ([0, 1, 1] : List Nat).length = 3 := rfl
  rw [e1, e2, h2, e3] at h3
  omega

end LateEx
end Ccsds
