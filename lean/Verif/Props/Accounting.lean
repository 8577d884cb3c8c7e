import Verif.Props.Stations
import Verif.Props.Info
/-!
# C121  What `info` counts as missing is what was lost on the link
-/
namespace Ccsds
open Spec

/-- Decoding a file of complete packets gives these packets. -/
theorem decodes_flatten (qs : List (List U8)) (hm : ∀ q ∈ qs, (6 ≤ q.length ∧ q.length = packetLen q) ∧ q.length ≤ 65536) (r : Reader) (hd : r.Delivers qs.flatten) :
    ∃ ps : List Packet, Spec.Decodes r ps ∧ List.Forall₂ ReadAs ps qs := by
  have h0 : ∃ ps0 : List Packet, List.Forall₂ ReadAs ps0 qs := by
    clear hd
    induction qs with
    | nil => exact ⟨[], .nil⟩
    | cons q qs ih =>
      obtain ⟨ps, h⟩ := ih fun q hq => hm q (by simp [hq])
      obtain ⟨hd, e, _⟩ := C01_fields q (hm q (by simp)).1.1
      exact ⟨⟨hd, q, 0⟩ :: ps, .cons ⟨rfl, e⟩ h⟩
  obtain ⟨ps0, h0⟩ := h0
  have hw : wire ps0 = qs.flatten := by
    clear hm hd
    induction h0 with
    | nil => rfl
    | cons h _ ih => unfold wire at ih ⊢; rw [List.flatMap_cons, ih, h.1, List.flatten_cons]
  obtain ⟨ps, s, c1, c2, c3⟩ := C05_roundtrip ps0 [] r (by
    intro p hp
    obtain ⟨i, hi, rfl⟩ := List.getElem_of_mem hp
    have hl := h0.length_eq
    obtain ⟨e1, e2⟩ := (List.forall₂_iff_get.1 h0).2 i hi (by omega)
    have := hm _ (List.getElem_mem (show i < qs.length by omega))
    simp only [List.get_eq_getElem] at e1 e2
    exact ⟨⟨by rw [e1]; exact this.1.2, by rw [e1]; exact e2⟩, by rw [e1]; exact this.2⟩) (by unfold packetLen; simp) (by simp)
    (by rw [List.append_nil, hw]; exact hd)
  refine ⟨ps, ⟨s, c1⟩, ?_⟩
  clear c1 hd hw hm c3
  induction h0 generalizing ps with
  | nil => rw [List.map_nil, List.map_eq_nil_iff] at c2; subst c2; exact .nil
  | cons h _ ih =>
    cases ps with
    | nil => simp at c2
    | cons p ps =>
      rw [List.map_cons, List.map_cons, List.cons.injEq, Prod.mk.injEq] at c2
      obtain ⟨⟨a1, a2⟩, a3⟩ := c2
      exact .cons ⟨a2.trans h.1, by rw [a1]; exact h.2⟩ (ih _ a3)

/-- The sequence ids of one APID. -/
theorem seqIds_read {ps : List Packet} {qs : List (List U8)} (h : List.Forall₂ ReadAs ps qs) (hq : ∀ q ∈ qs, 6 ≤ q.length) (a : U16) :
    seqIds (ofApid ps a) = (qs.filter fun q => field q 5 11 == a.toNat).map fun q => field q 18 14 := by
  induction h with
  | nil => rfl
  | @cons p q ps qs h _ ih =>
    obtain ⟨hd, e, _, _, _, f4, _, f6, _⟩ := C01_fields q (hq q (by simp))
    have e' : p.header = hd := by
      have := h.2
      rw [e] at this
      injection this with this
      exact this.symm
    have hi := ih fun q hq' => hq q (by simp [hq'])
    unfold seqIds ofApid at hi ⊢
    rw [List.filter_cons, List.filter_cons]
    by_cases ha : p.header.apid = a
    · have hb : field q 5 11 = a.toNat := by rw [← f4, ← e', ha]
      rw [if_pos (by simpa using ha), if_pos (by simpa using hb), List.map_cons, List.map_cons, hi, e', f6]
    · have hb : ¬ field q 5 11 = a.toNat := by
        intro hb
        exact ha (BitVec.eq_of_toNat_eq (by rw [e', f4, hb]))
      rw [if_neg (by simpa using ha), if_neg (by simpa using hb), hi]

/-- Choosing by number or by content. -/
theorem map_filter_zipIdx {α : Type} (P : α → Bool) (f : α → Nat) (g : Nat → Nat) : ∀ (M : List α) (n : Nat), (∀ i x, M[i]? = some x → f x = g (n + i)) →
    (M.filter P).map f = (((M.zipIdx n).filter fun y => P y.1).map (·.2)).map g := by
  intro M
  induction M with
  | nil => intro n _; rfl
  | cons x M ih =>
    intro n h
    have h0 := h 0 x rfl
    have hi := ih (n + 1) fun i y hy => by
      have := h (i + 1) y (by simpa using hy)
      rw [this]; congr 1; omega
    rw [List.zipIdx_cons, List.filter_cons, List.filter_cons]
    simp only
    split
    · rw [List.map_cons, List.map_cons, List.map_cons, hi, h0]; rfl
    · exact hi

namespace Spec.Transmitter

/-- The packets of APID `a` on a channel are numbered from `n` in the order in which they are sent. These are the numbers of those that satisfy `P` of their first stream position and
the one behind their last. -/
def numbersOf (P : Nat → Nat → Bool) (a n : Nat) (packets : List (List U8)) : List Nat :=
  (((((starts 0 packets).zip packets).filter fun x => field x.2 5 11 == a).zipIdx n).filter fun y => P y.1.1 (y.1.1 + y.1.2.length)).map (·.2)

/-- The sequence counters of the packets of APID `a` are their numbers modulo 16384. -/
def ApidNumbered (a n : Nat) (packets : List (List U8)) : Prop :=
  ∀ i q, (packets.filter fun q => field q 5 11 == a)[i]? = some q → field q 18 14 = (n + i) % 16384

theorem starts_length (packets : List (List U8)) : ∀ s, (starts s packets).length = packets.length := by
  induction packets with
  | nil => intro s; rfl
  | cons q qs ih => intro s; rw [starts, List.length_cons, List.length_cons, ih]

theorem numbersOf_ids (P : Nat → Nat → Bool) (a n : Nat) (packets : List (List U8)) (h : ApidNumbered a n packets) :
    ((thoseFrom P 0 packets).filter fun q => field q 5 11 == a).map (fun q => field q 18 14) = (numbersOf P a n packets).map (· % 16384) := by
  unfold thoseFrom numbersOf
  rw [List.filter_map, List.map_map, List.filter_filter]
  rw [show (fun x : Nat × List U8 => ((fun q => field q 5 11 == a) ∘ fun x : Nat × List U8 => x.2) x && P x.1 (x.1 + x.2.length)) =
    fun x => P x.1 (x.1 + x.2.length) && (field x.2 5 11 == a) from by funext x; simp [Bool.and_comm]]
  rw [← List.filter_filter]
  apply map_filter_zipIdx (fun x : Nat × List U8 => P x.1 (x.1 + x.2.length)) _ (· % 16384)
  intro i x hx
  apply h i x.2
  have : ((((starts 0 packets).zip packets).filter fun x => field x.2 5 11 == a).map (·.2))[i]? = some x.2 := by rw [List.getElem?_map, hx]; rfl
  rw [show (fun x : Nat × List U8 => field x.2 5 11 == a) = (fun q => field q 5 11 == a) ∘ Prod.snd from rfl, ← List.filter_map, List.map_snd_zip (by rw [starts_length])] at this
  exact this

/-- C121. The packets of a channel that come out of a recording with losses, errors and noise are written to a file, and `info` is run on it. It succeeds, and for every APID whose packets were
numbered consecutively by the sender it counts the packets that arrived whole (and that no frame with counter 0 cuts, C115); and, unless 16384 or more were lost in a row, it reports as missing exactly as
many as were lost of the packets between the first and the last one received. -/
theorem C121_info (b : Build) (k : Codec) (hk : Bounded k ccsdsCode) (t : Transmitter) (packets : BitVec 6 → List (List U8)) (slots : List (BitVec 6)) (o : RS.Opts)
    (h : Transmission b t packets slots o) (fates : List Fate) (hfates : List.Forall₂ t.Befalls (t.cadus packets slots) fates) (hn : NoticedAll t slots fates)
    (r : Reader) (hr : Records r (fates.flatMap Fate.bytes)) (p : RsStage.Params) (ps : BitVec 6 → List (List U8)) (hg : Gives b k t o p r ps)
    (v : BitVec 6) (hv : v ≠ 63) (hsize : ∀ q ∈ packets v, q.length ≤ 65536) (file : Reader) (hfile : file.Delivers (ps v).flatten) (τ : Epoch → Int) (cds : Bool) :
    ∃ i : Info.Info, (∀ res, Info.Runs b τ cds file res ↔ res = some i) ∧ i.summary.total = (ps v).length ∧
      ∀ (a : U16) (n : Nat) (ks : List Nat), ApidNumbered a.toNat n (packets v) →
        ks = numbersOf (fun a e => t.whole (fatesOf slots fates v) a e && !t.straddles v (slots.count v) a e) a.toNat n (packets v) →
        ((∃ s, (a, s) ∈ i.apids) ↔ ks ≠ []) ∧
        ∀ s, (a, s) ∈ i.apids → s.total = ks.length ∧ (Received 16384 ks → s.missing = lost ks) := by
  have hps := gives_eq hk h hfates hn hr hg v hv
  have hmem : ∀ q ∈ ps v, q ∈ packets v := by intro q hq; rw [hps] at hq; exact mem_thoseFrom _ _ _ _ hq
  have hwf : ∀ q ∈ ps v, (6 ≤ q.length ∧ q.length = packetLen q) ∧ q.length ≤ 65536 := by
    intro q hq
    have := h.wellformed v q (hmem q hq)
    exact ⟨⟨this.1, this.2.1⟩, hsize q (hmem q hq)⟩
  obtain ⟨qs, hd, hread⟩ := decodes_flatten (ps v) hwf file hfile
  obtain ⟨i, hi, hu⟩ := C56_info b τ cds _ file qs hfile hd
  refine ⟨i, hu, by rw [hi.total, hread.length_eq], ?_⟩
  intro a n ks hnum hks
  have hids : seqIds (ofApid qs a) = ks.map (· % 16384) := by
    rw [seqIds_read hread (fun q hq => (hwf q hq).1.1) a, hps, hks]
    exact numbersOf_ids _ _ _ _ hnum
  have hlen : (ofApid qs a).length = ks.length := by
    have := congrArg List.length hids
    simpa [seqIds] using this
  refine ⟨?_, ?_⟩
  · rw [hi.present a]
    have : (∃ p ∈ qs, p.header.apid = a) ↔ ofApid qs a ≠ [] := by
      unfold ofApid
      rw [ne_eq, List.filter_eq_nil_iff]
      simp
    rw [this, ← List.length_pos_iff, hlen, List.length_pos_iff]
  · intro s hs
    obtain ⟨e1, e2, _⟩ := hi.each a s hs
    exact ⟨e1.trans hlen, fun hrec => by rw [e2, hids, C10_lost ks hrec]⟩

/-! ## A concrete case

Channel 1 sends three packets of APID 5 with the counters 0, 1 and 2 in three frames. The second data unit is lost: `info` counts two packets and reports one missing. -/

@[irreducible] def exAccP (x : U8) : List U8 := [0x08#8, 0x05#8, 0xc0#8, x, 0x00#8, 0xd0#8] ++ List.replicate 209 9#8
def exAccPackets (v : BitVec 6) : List (List U8) := if v = 1#6 then [exAccP 0#8, exAccP 1#8, exAccP 2#8] else []
def exAccSlots : List (BitVec 6) := [1, 1, 1]

theorem exAccP_facts : ∀ x ∈ [0#8, 1#8, 2#8], (6 ≤ (exAccP x).length ∧ (exAccP x).length = packetLen (exAccP x)) ∧ IsPacket (exAccP x) ∧ (exAccP x).length = 215 ∧ field (exAccP x) 5 11 = 5 ∧
    field (exAccP x) 18 14 = x.toNat := by
  unfold exAccP
  intro x hx
  simp only [List.mem_cons, List.not_mem_nil, or_false] at hx
  rcases hx with rfl | rfl | rfl
  all_goals exact ⟨⟨by decide +kernel, by decide +kernel⟩, ⟨by decide +kernel, by decide +kernel, by decide +kernel, by decide +kernel⟩, by decide +kernel, by decide +kernel, by decide +kernel⟩

theorem exAcc_mem {v : BitVec 6} {q : List U8} (h : q ∈ exAccPackets v) : ∃ x ∈ [0#8, 1#8, 2#8], q = exAccP x := by
  unfold exAccPackets at h
  split at h
  · simp only [List.mem_cons, List.not_mem_nil, or_false] at h
    rcases h with rfl | rfl | rfl
    · exact ⟨0#8, by simp, rfl⟩
    · exact ⟨1#8, by simp, rfl⟩
    · exact ⟨2#8, by simp, rfl⟩
  · simp at h

theorem exAcc_transmission (b : Build) : Transmission b exTransmitter exAccPackets exAccSlots ⟨1, 0, true, true⟩ := by
  have hc : ∀ v : BitVec 6, exAccSlots.count v ≤ 3 := fun v => List.count_le_length
  refine ⟨exTransmitter_valid, ?_, ?_, fun v _ => ?_, fun _ v _ => ?_, rfl, rfl, rfl⟩
  · intro v q hq
    obtain ⟨x, hx, rfl⟩ := exAcc_mem hq
    exact (exAccP_facts x hx).2.1
  · intro v _
    have hz : exTransmitter.zoneSize = 215 := rfl
    rw [hz]
    by_cases h : v = 1#6
    · subst h
      have e : exAccPackets 1#6 = [exAccP 0#8, exAccP 1#8, exAccP 2#8] := rfl
      have h0 := (exAccP_facts 0#8 (by simp)).2.2.1
      have h1 := (exAccP_facts 1#8 (by simp)).2.2.1
      have h2 := (exAccP_facts 2#8 (by simp)).2.2.1
      rw [e]
      simp only [List.flatten_cons, List.flatten_nil, List.append_nil, List.length_append, h0, h1, h2]
      exact Nat.le_of_eq rfl
    · have h0 : exAccSlots.count v = 0 := by
        rw [List.count_eq_zero]
        intro hm
        unfold exAccSlots at hm
        simp only [List.mem_cons, List.not_mem_nil, or_false] at hm
        rcases hm with h' | h' | h' <;> exact h h'
      rw [h0]; omega
  · have := hc v; omega
  · have := hc v
    have e : exTransmitter.counter v 0 = 77 := rfl
    omega

theorem exAcc_ids : ∀ (i : Nat) (q : List U8), ((exAccPackets 1#6).filter fun q => field q 5 11 == 5)[i]? = some q → field q 18 14 = (0 + i) % 16384 := by
  have e : exAccPackets 1#6 = [exAccP 0#8, exAccP 1#8, exAccP 2#8] := rfl
  have h0 := (exAccP_facts 0#8 (by simp)).2.2.2
  have h1 := (exAccP_facts 1#8 (by simp)).2.2.2
  have h2 := (exAccP_facts 2#8 (by simp)).2.2.2
  rw [e]
  generalize exAccP 0#8 = q0 at *
  generalize exAccP 1#8 = q1 at *
  generalize exAccP 2#8 = q2 at *
  intro i q h
  simp only [List.filter_cons, h0.1, h1.1, h2.1, List.filter_nil, beq_self_eq_true, if_true] at h
  match i with
  | 0 => simp only [List.getElem?_cons_zero, Option.some.injEq] at h; subst h; exact h0.2
  | 1 => simp only [List.getElem?_cons_succ, List.getElem?_cons_zero, Option.some.injEq] at h; subst h; exact h1.2
  | 2 => simp only [List.getElem?_cons_succ, List.getElem?_cons_zero, Option.some.injEq] at h; subst h; exact h2.2
  | i + 3 => simp at h

theorem exAcc_numbers (P : Nat → Nat → Bool) (h1 : P 0 215 = true) (h2 : P 215 430 = false) (h3 : P 430 645 = true) : numbersOf P 5 0 (exAccPackets 1#6) = [0, 2] := by
  have e : exAccPackets 1#6 = [exAccP 0#8, exAccP 1#8, exAccP 2#8] := rfl
  have f0 := (exAccP_facts 0#8 (by simp)).2.2
  have f1 := (exAccP_facts 1#8 (by simp)).2.2
  have f2 := (exAccP_facts 2#8 (by simp)).2.2
  rw [e]
  generalize exAccP 0#8 = q0 at *
  generalize exAccP 1#8 = q1 at *
  generalize exAccP 2#8 = q2 at *
  unfold numbersOf
  simp [starts, f0.1, f1.1, f2.1, f0.2.1, f1.2.1, f2.2.1, List.zipIdx_cons, h1, h2, h3]

example (b : Build) (c0 c1 c2 : List U8) (hcs : exTransmitter.cadus exAccPackets exAccSlots = [c0, c1, c2]) (r : Reader) (hr : Smooth r (c0 ++ c2)) (p : RsStage.Params)
    (ps : BitVec 6 → List (List U8)) (hg : Gives b (bddCodec ccsdsCode) exTransmitter ⟨1, 0, true, true⟩ p r ps) (file : Reader) (hfile : file.Delivers (ps 1#6).flatten) (τ : Epoch → Int) (cds : Bool) :
    ∃ i : Info.Info, Info.Runs b τ cds file (some i) ∧ ∃ s, (5#16, s) ∈ i.apids ∧ s.total = 2 ∧ s.missing = 1 := by
  have hb : List.Forall₂ exTransmitter.Befalls (exTransmitter.cadus exAccPackets exAccSlots) [.received c0, .lost, .received c2] := by
    rw [hcs]
    exact .cons (noisy_refl _ c0) (.cons trivial (.cons (noisy_refl _ c2) .nil))
  have hn : NoticedAll exTransmitter exAccSlots [.received c0, .lost, .received c2] := by
    intro v _ n a c h1 h2 h3 h4
    exfalso
    have hl := (List.getElem?_eq_some_iff.1 h3).1
    have hle : (fatesOf exAccSlots [Fate.received c0, .lost, .received c2] v).length ≤ 3 := by
      unfold fatesOf
      rw [List.length_map]
      refine Nat.le_trans (List.length_filter_le _ _) ?_
      rw [List.length_zip]
      exact Nat.min_le_right _ _
    have e : exTransmitter.counter v (n + 1) = (77 + (n + 1)) % 2 ^ 24 := rfl
    omega
  obtain ⟨i, h1, _, h3⟩ := C121_info b (bddCodec ccsdsCode) C113_distance.2 exTransmitter exAccPackets exAccSlots ⟨1, 0, true, true⟩ (exAcc_transmission b) _ hb hn r
    (records_plain r [c0, c2] (by simpa using hr)) p ps hg 1#6 (by decide)
    (fun q hq => by
      obtain ⟨x, hx, rfl⟩ := exAcc_mem hq
      rw [(exAccP_facts x hx).2.2.1]
      decide) file hfile τ cds
  have hf : fatesOf exAccSlots [Fate.received c0, .lost, .received c2] 1#6 = [.received c0, .lost, .received c2] := rfl
  rw [hf] at h3
  have hks : [0, 2] = numbersOf (fun a e => exTransmitter.whole [.received c0, .lost, .received c2] a e && !exTransmitter.straddles 1#6 (exAccSlots.count 1#6) a e) 5 0 (exAccPackets 1#6) := by
    refine (exAcc_numbers _ ?_ ?_ ?_).symm
    · have d : exTransmitter.straddles 1#6 (exAccSlots.count 1#6) 0 215 = false := by decide +kernel
      rw [d]; rfl
    · rfl
    · have d : exTransmitter.straddles 1#6 (exAccSlots.count 1#6) 430 645 = false := by decide +kernel
      have w : exTransmitter.whole [.received c0, .lost, .received c2] 430 645 = true := by
        rw [whole_iff]
        have hz : exTransmitter.zoneSize = 215 := rfl
        rw [hz]
        refine ⟨by show 645 ≤ 3 * 215; decide, fun n f hf => ?_⟩
        match n with
        | 0 => right; omega
        | 1 => right; omega
        | n + 2 =>
          left
          have hm : f ∈ [Fate.received c2] := List.mem_of_getElem? (i := n) hf
          simp only [List.mem_cons, List.not_mem_nil, or_false] at hm
          subst hm
          rfl
      rw [d, w]; rfl
  obtain ⟨h4, h5⟩ := h3 5#16 0 [0, 2] exAcc_ids hks
  obtain ⟨s, hs⟩ := h4.2 (by simp)
  obtain ⟨h6, h7⟩ := h5 s hs
  refine ⟨i, (h1 _).2 rfl, s, hs, h6, ?_⟩
  rw [h7 ⟨by omega, by omega, trivial⟩]
  decide

end Spec.Transmitter
end Ccsds
