import Verif.Props.Link
/-!
# C118, C119  Recordings that are cut in two, and better recordings
-/
namespace Ccsds
open Spec Pipeline

namespace Spec.Transmitter

/-! ## Lists of packets -/

/-- The packets, the first at position `s`, that satisfy `P` of their first position and the one behind their last. -/
def thoseFrom (P : Nat → Nat → Bool) (s : Nat) (packets : List (List U8)) : List (List U8) :=
  (((starts s packets).zip packets).filter fun x => P x.1 (x.1 + x.2.length)).map (·.2)

theorem those_eq (P : Nat → Nat → Bool) (packets : List (List U8)) : those P packets = thoseFrom P 0 packets := rfl

theorem thoseFrom_cons (P : Nat → Nat → Bool) (s : Nat) (q : List U8) (qs : List (List U8)) :
    thoseFrom P s (q :: qs) = (if P s (s + q.length) then [q] else []) ++ thoseFrom P (s + q.length) qs := by
  unfold thoseFrom
  rw [starts, List.zip_cons_cons, List.filter_cons]
  split <;> simp_all

theorem thoseFrom_congr (P Q : Nat → Nat → Bool) (qs : List (List U8)) (hq : ∀ q ∈ qs, 0 < q.length) (h : ∀ a e, a < e → P a e = Q a e) : ∀ s, thoseFrom P s qs = thoseFrom Q s qs := by
  induction qs with
  | nil => intro s; rfl
  | cons q qs ih =>
    intro s
    have := hq q (by simp)
    rw [thoseFrom_cons, thoseFrom_cons, h _ _ (by omega), ih fun q hq' => hq q (by simp [hq'])]

/-- Packets that satisfy `P` only if they begin at or behind `c`. -/
theorem thoseFrom_none (P : Nat → Nat → Bool) (c : Nat) (qs : List (List U8)) (hq : ∀ q ∈ qs, 0 < q.length) (h : ∀ a e, a < e → c ≤ a → P a e = false) : ∀ s, c ≤ s → thoseFrom P s qs = [] := by
  induction qs with
  | nil => intro s _; rfl
  | cons q qs ih =>
    intro s hs
    have := hq q (by simp)
    rw [thoseFrom_cons, h _ _ (by omega) hs, ih (fun q hq' => hq q (by simp [hq'])) _ (by omega)]
    rfl

/-- The packets that end at or before `c`, those across `c` (at most one), those that begin at or behind `c`. -/
theorem thoseFrom_cut (P : Nat → Nat → Bool) (c : Nat) (qs : List (List U8)) (hq : ∀ q ∈ qs, 0 < q.length) : ∀ s,
    thoseFrom P s qs = thoseFrom (fun a e => P a e && decide (e ≤ c)) s qs ++ thoseFrom (fun a e => P a e && (decide (a < c) && decide (c < e))) s qs ++
      thoseFrom (fun a e => P a e && decide (c ≤ a)) s qs ∧
    (thoseFrom (fun a e => P a e && (decide (a < c) && decide (c < e))) s qs).length ≤ 1 := by
  induction qs with
  | nil => intro s; exact ⟨rfl, Nat.zero_le _⟩
  | cons q qs ih =>
    intro s
    have hl := hq q (by simp)
    have hq' : ∀ q ∈ qs, 0 < q.length := fun q h => hq q (by simp [h])
    obtain ⟨h1, h2⟩ := ih hq' (s + q.length)
    rw [thoseFrom_cons, thoseFrom_cons, thoseFrom_cons, thoseFrom_cons]
    by_cases ha : s + q.length ≤ c
    · have e2 : (decide (s < c) && decide (c < s + q.length)) = false := by simp; omega
      have e3 : decide (c ≤ s) = false := by simp; omega
      simp only [ha, decide_true, Bool.and_true, e2, e3, Bool.and_false, Bool.false_eq_true, if_false, List.nil_append]
      exact ⟨by rw [h1]; simp only [List.append_assoc], h2⟩
    · have n1 : ∀ s', c ≤ s' → thoseFrom (fun a e => P a e && decide (e ≤ c)) s' qs = [] := fun s' hs' =>
        thoseFrom_none _ c qs hq' (fun a e hae hca => by simp; omega) s' hs'
      have n2 : ∀ s', c ≤ s' → thoseFrom (fun a e => P a e && (decide (a < c) && decide (c < e))) s' qs = [] := fun s' hs' =>
        thoseFrom_none _ c qs hq' (fun a e hae hca => by simp; omega) s' hs'
      rw [n1 _ (by omega), n2 _ (by omega)] at h1 ⊢
      have e1 : decide (s + q.length ≤ c) = false := by simp; omega
      simp only [e1, Bool.and_false, Bool.false_eq_true, if_false, List.nil_append, List.append_nil] at h1 ⊢
      by_cases hb : s < c
      · have e2 : (decide (s < c) && decide (c < s + q.length)) = true := by simp; omega
        have e3 : decide (c ≤ s) = false := by simp; omega
        simp only [e2, e3, Bool.and_true, Bool.and_false, Bool.false_eq_true, if_false, List.nil_append]
        refine ⟨by rw [h1], ?_⟩
        split <;> simp
      · have e2 : (decide (s < c) && decide (c < s + q.length)) = false := by simp; omega
        have e3 : decide (c ≤ s) = true := by simp; omega
        simp only [e2, e3, Bool.and_true, Bool.and_false, Bool.false_eq_true, if_false, List.nil_append]
        exact ⟨by rw [h1], by simp⟩

theorem thoseFrom_sublist (P Q : Nat → Nat → Bool) (h : ∀ a e, P a e = true → Q a e = true) (qs : List (List U8)) : ∀ s, (thoseFrom P s qs).Sublist (thoseFrom Q s qs) := by
  induction qs with
  | nil => intro s; exact List.Sublist.refl _
  | cons q qs ih =>
    intro s
    rw [thoseFrom_cons, thoseFrom_cons]
    refine List.Sublist.append ?_ (ih _)
    split
    · rename_i hP
      rw [if_pos (h _ _ hP)]
    · exact List.nil_sublist _

/-! ## Fates -/

theorem fatesOf_append (v : BitVec 6) (s1 s2 : List (BitVec 6)) (f1 f2 : List Fate) (h : s1.length = f1.length) :
    fatesOf (s1 ++ s2) (f1 ++ f2) v = fatesOf s1 f1 v ++ fatesOf s2 f2 v := by
  unfold fatesOf
  rw [List.zip_append h, List.filter_append, List.map_append]

theorem fatesOf_lost (v : BitVec 6) (s : List (BitVec 6)) : fatesOf s (List.replicate s.length .lost) v = List.replicate (s.count v) .lost := by
  induction s with
  | nil => rfl
  | cons w s ih =>
    unfold fatesOf at ih ⊢
    rw [List.length_cons, List.replicate_succ, List.zip_cons_cons, List.filter_cons, List.count_cons]
    by_cases h : w = v
    · rw [if_pos (by simp [h]), List.map_cons, ih, if_pos (by simp [h]), List.replicate_succ]
    · rw [if_neg (by simp [h]), ih, if_neg (by simp [h])]; rfl

/-- Nothing of the later frames: the stream positions must end before them. -/
theorem whole_before (t : Transmitter) (hz : 1 ≤ t.zoneSize) (F G : List Fate) (a e : Nat) (hae : a < e) :
    t.whole (F ++ List.replicate G.length .lost) a e = (t.whole (F ++ G) a e && decide (e ≤ F.length * t.zoneSize)) := by
  rw [Bool.eq_iff_iff, Bool.and_eq_true, whole_iff, whole_iff, decide_eq_true_eq]
  simp only [List.length_append, List.length_replicate]
  constructor
  · rintro ⟨h1, h2⟩
    have hc : e ≤ F.length * t.zoneSize := by
      by_contra hc
      -- the frame of position `e - 1`
      have hm := Nat.div_add_mod (e - 1) t.zoneSize
      have hml := Nat.mod_lt (e - 1) (show 0 < t.zoneSize by omega)
      generalize hn : (e - 1) / t.zoneSize = n at hm
      rw [Nat.mul_comm] at hm
      have h3 : F.length ≤ n := by
        by_contra hlt
        have := Nat.mul_le_mul_right t.zoneSize (show n + 1 ≤ F.length by omega)
        rw [Nat.add_mul] at this; omega
      have h4 : n < F.length + G.length := by
        by_contra hlt
        have := Nat.mul_le_mul_right t.zoneSize (show F.length + G.length ≤ n by omega)
        omega
      rcases h2 n .lost (by rw [List.getElem?_append_right h3, List.getElem?_replicate, if_pos (by omega)]) with h | h
      · cases h
      · rw [Nat.add_mul] at h; omega
    refine ⟨⟨h1, fun n f hf => ?_⟩, hc⟩
    by_cases hn : n < F.length
    · exact h2 n f (by rw [List.getElem?_append_left hn] at hf ⊢; exact hf)
    · right
      have := Nat.mul_le_mul_right t.zoneSize (show F.length ≤ n by omega)
      omega
  · rintro ⟨⟨h1, h2⟩, hc⟩
    refine ⟨h1, fun n f hf => ?_⟩
    by_cases hn : n < F.length
    · exact h2 n f (by rw [List.getElem?_append_left hn] at hf ⊢; exact hf)
    · right
      have := Nat.mul_le_mul_right t.zoneSize (show F.length ≤ n by omega)
      omega

/-- Nothing of the earlier frames: the stream positions must begin behind them. -/
theorem whole_behind (t : Transmitter) (hz : 1 ≤ t.zoneSize) (F G : List Fate) (a e : Nat) (hae : a < e) :
    t.whole (List.replicate F.length .lost ++ G) a e = (t.whole (F ++ G) a e && decide (F.length * t.zoneSize ≤ a)) := by
  rw [Bool.eq_iff_iff, Bool.and_eq_true, whole_iff, whole_iff, decide_eq_true_eq]
  simp only [List.length_append, List.length_replicate]
  constructor
  · rintro ⟨h1, h2⟩
    have hc : F.length * t.zoneSize ≤ a := by
      by_contra hc
      have hm := Nat.div_add_mod a t.zoneSize
      have hml := Nat.mod_lt a (show 0 < t.zoneSize by omega)
      generalize hn : a / t.zoneSize = n at hm
      rw [Nat.mul_comm] at hm
      have h3 : n < F.length := by
        by_contra hlt
        have := Nat.mul_le_mul_right t.zoneSize (show F.length ≤ n by omega)
        omega
      rcases h2 n .lost (by rw [List.getElem?_append_left (by simpa using h3), List.getElem?_replicate, if_pos h3]) with h | h
      · cases h
      · rw [Nat.add_mul] at h; omega
    refine ⟨⟨h1, fun n f hf => ?_⟩, hc⟩
    by_cases hn : n < F.length
    · right
      have := Nat.mul_le_mul_right t.zoneSize (show n + 1 ≤ F.length by omega)
      omega
    · exact h2 n f (by rw [List.getElem?_append_right (by simpa using hn)]; rw [List.getElem?_append_right (by omega)] at hf; simpa using hf)
  · rintro ⟨⟨h1, h2⟩, hc⟩
    refine ⟨h1, fun n f hf => ?_⟩
    by_cases hn : n < F.length
    · right
      have := Nat.mul_le_mul_right t.zoneSize (show n + 1 ≤ F.length by omega)
      omega
    · exact h2 n f (by rw [List.getElem?_append_right (by omega)]; rw [List.getElem?_append_right (by simpa using hn)] at hf; simpa using hf)

/-- The reader delivers these data units, one after the other, with any noise that contains no marker before, between and behind them. -/
def Records (r : Reader) (rxs : List (List U8)) : Prop :=
  ∃ (units : List (List Bool × List U8)) (post : List Bool) (S : List U8), units.map (·.2) = rxs ∧ (∀ u ∈ units, ∀ i, ¬ Occurs (bits marker) u.1 i) ∧
    (∀ i, ¬ Occurs (bits marker) post i) ∧ bits S = (units.flatMap fun u => u.1 ++ bits u.2) ++ post ∧ Smooth r S

/-- A run of the pipeline on the reader, to its end, and of the packet decoder on the frames it gives; `ps v` are the packets of channel `v` that come out. -/
def Gives (b : Build) (k : Codec) (t : Transmitter) (o : RS.Opts) (p : RsStage.Params) (r : Reader) (ps : BitVec 6 → List (List U8)) : Prop :=
  ∃ s outs, Runs b k ⟨t.randomized, some (o, p), t.blockSize⟩ r s ∧ s.cons = .ended ∧ ByFrame t.insertSize t.trailerSize s.got outs ∧
    ∀ v, ps v = packetsOf (v.setWidth 16) s.got outs

/-- What is known of a transmission and the configuration of the receiver (the hypotheses of C117). -/
structure Transmission (b : Build) (t : Transmitter) (packets : BitVec 6 → List (List U8)) (slots : List (BitVec 6)) (o : RS.Opts) : Prop where
  valid : t.Valid
  wellformed : ∀ v, ∀ q ∈ packets v, IsPacket q
  sent : ∀ v, v ≠ 63 → slots.count v * t.zoneSize ≤ (packets v).flatten.length
  count : ∀ v, v ≠ 63 → slots.count v ≤ 2 ^ 24
  checks : b.overflowChecks = true → ∀ v, v ≠ 63 → t.counter v 0 + slots.count v ≤ 2 ^ 24
  depth : o.interleave.toNat = t.depth
  fill : o.virtualFill = t.fill
  correct : o.correct = true

/-- No single frame missing right before or after a rollover of the counter (see C116). -/
def NoticedAll (t : Transmitter) (slots : List (BitVec 6)) (fates : List Fate) : Prop :=
  ∀ v, v ≠ 63 → ∀ n a c, (fatesOf slots fates v)[n]? = some a → (fatesOf slots fates v)[n + 1]? = some .lost → (fatesOf slots fates v)[n + 2]? = some c →
    t.counter v (n + 1) = 2 ^ 24 - 1 ∨ t.counter v (n + 1) = 0 → a = .lost ∨ c = .lost

/-- The packets of channel `v` that C117 says come out. -/
theorem gives_eq {b : Build} {k : Codec} (hk : Bounded k ccsdsCode) {t : Transmitter} {packets : BitVec 6 → List (List U8)} {slots : List (BitVec 6)} {o : RS.Opts}
    (h : Transmission b t packets slots o) {fates : List Fate} (hfates : List.Forall₂ t.Befalls (t.cadus packets slots) fates) (hn : NoticedAll t slots fates) {r : Reader}
    (hr : Records r (fates.flatMap Fate.bytes)) {p : RsStage.Params} {ps : BitVec 6 → List (List U8)} (hg : Gives b k t o p r ps) (v : BitVec 6) (hv : v ≠ 63) :
    ps v = thoseFrom (fun a e => t.whole (fatesOf slots fates v) a e && !t.straddles v (slots.count v) a e) 0 (packets v) := by
  obtain ⟨units, post, S, hu, hgap, hpost, hS, hsm⟩ := hr
  obtain ⟨s, outs, hs, hend, hby, hps⟩ := hg
  obtain ⟨_, hc⟩ := C117_received b k hk t h.valid packets h.wellformed slots h.sent h.count h.checks fates hfates hn units hu post hgap hpost S hS r hsm o h.depth h.fill h.correct p
  obtain ⟨_, outs', st, hby', _, hx⟩ := (hc s hs).2.2 hend
  rw [hps, hby.unique hby', hx v hv]
  rfl

/-- There is something to speak of: the recording can be decoded. -/
theorem gives_some {b : Build} {k : Codec} (hk : Bounded k ccsdsCode) {t : Transmitter} {packets : BitVec 6 → List (List U8)} {slots : List (BitVec 6)} {o : RS.Opts}
    (h : Transmission b t packets slots o) {fates : List Fate} (hfates : List.Forall₂ t.Befalls (t.cadus packets slots) fates) (hn : NoticedAll t slots fates) {r : Reader}
    (hr : Records r (fates.flatMap Fate.bytes)) {p : RsStage.Params} (hw : 1 ≤ p.workers) : ∃ ps, Gives b k t o p r ps := by
  obtain ⟨units, post, S, hu, hgap, hpost, hS, hsm⟩ := hr
  obtain ⟨hs, hc⟩ := C117_received b k hk t h.valid packets h.wellformed slots h.sent h.count h.checks fates hfates hn units hu post hgap hpost S hS r hsm o h.depth h.fill h.correct p
  obtain ⟨s', hs', hend⟩ := (hc _ hs).2.1 hw (by simp [RsStage.State.init])
  obtain ⟨_, outs, st, hby, _, _⟩ := (hc s' hs').2.2 hend
  exact ⟨_, s', outs, hs', hend, hby, fun _ => rfl⟩

theorem befalls_lost (t : Transmitter) (l : List (List U8)) (m : Nat) (h : l.length = m) : List.Forall₂ t.Befalls l (List.replicate m .lost) := by
  subst h
  induction l with
  | nil => exact .nil
  | cons c l ih => exact .cons trivial ih

theorem flatMap_lost (m : Nat) : (List.replicate m Fate.lost).flatMap Fate.bytes = [] := by
  induction m with
  | zero => rfl
  | succ m ih => rw [List.replicate_succ, List.flatMap_cons, ih]; rfl

/-- C118. A recording of a transmission is cut in two between data units. What the decoder gives for the two parts, one after the other, is for every channel what it gives for the
whole recording, but for the one packet (if any) that was begun before and ended behind the cut. -/
theorem C118_cut (b : Build) (k : Codec) (hk : Bounded k ccsdsCode) (t : Transmitter) (packets : BitVec 6 → List (List U8)) (slots : List (BitVec 6)) (o : RS.Opts)
    (h : Transmission b t packets slots o) (fates : List Fate) (hfates : List.Forall₂ t.Befalls (t.cadus packets slots) fates) (hn : NoticedAll t slots fates)
    (n : Nat) (r r1 r2 : Reader) (hr : Records r (fates.flatMap Fate.bytes)) (h1 : Records r1 ((fates.take n).flatMap Fate.bytes)) (h2 : Records r2 ((fates.drop n).flatMap Fate.bytes))
    (p p1 p2 : RsStage.Params) (ps ps1 ps2 : BitVec 6 → List (List U8)) (hg : Gives b k t o p r ps) (hg1 : Gives b k t o p1 r1 ps1) (hg2 : Gives b k t o p2 r2 ps2)
    (v : BitVec 6) (hv : v ≠ 63) :
    ∃ cut, cut.length ≤ 1 ∧ ps v = ps1 v ++ cut ++ ps2 v ∧
      cut = those (fun a e => decide (a < (slots.take n).count v * t.zoneSize) && decide ((slots.take n).count v * t.zoneSize < e) &&
        t.whole (fatesOf slots fates v) a e && !t.straddles v (slots.count v) a e) (packets v) := by
  have hlen : slots.length = fates.length := by
    have := hfates.length_eq
    rw [← this, cadus, List.length_map, number_length]
  have hcl : (t.cadus packets slots).length = fates.length := hfates.length_eq
  have hne : ∀ q ∈ packets v, 0 < q.length := fun q hq => by have := (h.wellformed v q hq).1; omega
  have hz := h.valid.zone.1
  -- the fates of the channels, before and behind the cut
  have htl : (slots.take n).length = (fates.take n).length := by rw [List.length_take, List.length_take, hlen]
  have hdl : (slots.drop n).length = (fates.drop n).length := by rw [List.length_drop, List.length_drop, hlen]
  have hsplit : ∀ (v : BitVec 6) (f1 f2 : List Fate), (slots.take n).length = f1.length → fatesOf slots (f1 ++ f2) v = fatesOf (slots.take n) f1 v ++ fatesOf (slots.drop n) f2 v := by
    intro v f1 f2 hf
    have := fatesOf_append v (slots.take n) (slots.drop n) f1 f2 hf
    rwa [List.take_append_drop] at this
  have hall : ∀ v, fatesOf slots fates v = fatesOf (slots.take n) (fates.take n) v ++ fatesOf (slots.drop n) (fates.drop n) v := by
    intro v
    have := hsplit v (fates.take n) (fates.drop n) htl
    rwa [List.take_append_drop] at this
  have hF : ∀ v, (fatesOf (slots.take n) (fates.take n) v).length = (slots.take n).count v := fun v => fatesOf_length v _ _ htl.symm
  have hG : ∀ v, (fatesOf (slots.drop n) (fates.drop n) v).length = (slots.drop n).count v := fun v => fatesOf_length v _ _ hdl.symm
  have hA : ∀ v, fatesOf slots (fates.take n ++ List.replicate (slots.drop n).length .lost) v =
      fatesOf (slots.take n) (fates.take n) v ++ List.replicate (fatesOf (slots.drop n) (fates.drop n) v).length .lost := by
    intro v
    rw [hsplit v _ _ htl, fatesOf_lost, hG]
  have hB : ∀ v, fatesOf slots (List.replicate (slots.take n).length .lost ++ fates.drop n) v =
      List.replicate (fatesOf (slots.take n) (fates.take n) v).length .lost ++ fatesOf (slots.drop n) (fates.drop n) v := by
    intro v
    rw [hsplit v _ _ (by simp), fatesOf_lost, hF]
  have hbA : List.Forall₂ t.Befalls (t.cadus packets slots) (fates.take n ++ List.replicate (slots.drop n).length .lost) := by
    have h3 := List.rel_append (List.forall₂_take n hfates) (befalls_lost t ((t.cadus packets slots).drop n) (slots.drop n).length (by rw [List.length_drop, List.length_drop, hcl, hlen]))
    simp only [List.take_append_drop] at h3
    exact h3
  have hbB : List.Forall₂ t.Befalls (t.cadus packets slots) (List.replicate (slots.take n).length .lost ++ fates.drop n) := by
    have h3 := List.rel_append (befalls_lost t ((t.cadus packets slots).take n) (slots.take n).length (by rw [List.length_take, List.length_take, hcl, hlen])) (List.forall₂_drop n hfates)
    simp only [List.take_append_drop] at h3
    exact h3
  have hnA : NoticedAll t slots (fates.take n ++ List.replicate (slots.drop n).length .lost) := by
    intro v hv m a c ha hl hc hx
    rw [hA] at ha hl hc
    by_cases hm : m + 2 < (fatesOf (slots.take n) (fates.take n) v).length
    · rw [List.getElem?_append_left (by omega)] at ha hl hc
      refine hn v hv m a c ?_ ?_ ?_ hx <;> rw [hall, List.getElem?_append_left (by omega)] <;> assumption
    · right
      rw [List.getElem?_append_right (by omega), List.getElem?_replicate] at hc
      split at hc
      · exact (Option.some.inj hc).symm
      · cases hc
  have hnB : NoticedAll t slots (List.replicate (slots.take n).length .lost ++ fates.drop n) := by
    intro v hv m a c ha hl hc hx
    rw [hB] at ha hl hc
    by_cases hm : m < (fatesOf (slots.take n) (fates.take n) v).length
    · left
      rw [List.getElem?_append_left (by simpa using hm), List.getElem?_replicate, if_pos hm] at ha
      exact (Option.some.inj ha).symm
    · rw [List.getElem?_append_right (by rw [List.length_replicate]; omega), List.length_replicate] at ha hl hc
      refine hn v hv m a c ?_ ?_ ?_ hx <;> rw [hall, List.getElem?_append_right (by omega)] <;> assumption
  have g0 := gives_eq hk h hfates hn hr hg v hv
  have g1 := gives_eq hk h hbA hnA (by rw [List.flatMap_append, flatMap_lost, List.append_nil]; exact h1) hg1 v hv
  have g2 := gives_eq hk h hbB hnB (by rw [List.flatMap_append, flatMap_lost, List.nil_append]; exact h2) hg2 v hv
  obtain ⟨c1, c2⟩ := thoseFrom_cut (fun a e => t.whole (fatesOf slots fates v) a e && !t.straddles v (slots.count v) a e) ((slots.take n).count v * t.zoneSize) (packets v) hne 0
  refine ⟨_, c2, ?_, ?_⟩
  · rw [g0, c1, g1, g2]
    congr 1
    · congr 1
      refine thoseFrom_congr _ _ _ hne (fun a e hae => ?_) 0
      show (t.whole (fatesOf slots fates v) a e && !t.straddles v (slots.count v) a e && decide (e ≤ (slots.take n).count v * t.zoneSize)) = (_ && !_)
      rw [hA v, whole_before t hz _ _ a e hae, ← hall, hF, Bool.and_right_comm]
    · refine thoseFrom_congr _ _ _ hne (fun a e hae => ?_) 0
      show (t.whole (fatesOf slots fates v) a e && !t.straddles v (slots.count v) a e && decide ((slots.take n).count v * t.zoneSize ≤ a)) = (_ && !_)
      rw [hB v, whole_behind t hz _ _ a e hae, ← hall, hF, Bool.and_right_comm]
  · rw [those_eq]
    refine thoseFrom_congr _ _ _ hne (fun a e _ => ?_) 0
    show (t.whole (fatesOf slots fates v) a e && !t.straddles v (slots.count v) a e && (decide (a < _) && decide (_ < e))) = _
    rw [Bool.and_comm, Bool.and_assoc, Bool.and_assoc, Bool.and_assoc]

/-- C119. A better reception never gives fewer packets: if every data unit that the first recording has in a repairable state is in a repairable state in the second as well, the
packets of every channel that come out of the first recording come out of the second, in the same order. -/
theorem C119_better (b : Build) (k : Codec) (hk : Bounded k ccsdsCode) (t : Transmitter) (packets : BitVec 6 → List (List U8)) (slots : List (BitVec 6)) (o : RS.Opts)
    (h : Transmission b t packets slots o) (fates fates' : List Fate) (hfates : List.Forall₂ t.Befalls (t.cadus packets slots) fates)
    (hfates' : List.Forall₂ t.Befalls (t.cadus packets slots) fates') (hn : NoticedAll t slots fates) (hn' : NoticedAll t slots fates')
    (hbetter : List.Forall₂ (fun f f' : Fate => f.ok = true → f'.ok = true) fates fates')
    (r r' : Reader) (hr : Records r (fates.flatMap Fate.bytes)) (hr' : Records r' (fates'.flatMap Fate.bytes))
    (p p' : RsStage.Params) (ps ps' : BitVec 6 → List (List U8)) (hg : Gives b k t o p r ps) (hg' : Gives b k t o p' r' ps') (v : BitVec 6) (hv : v ≠ 63) :
    (ps v).Sublist (ps' v) := by
  rw [gives_eq hk h hfates hn hr hg v hv, gives_eq hk h hfates' hn' hr' hg' v hv]
  have hlen : slots.length = fates.length := by
    have := hfates.length_eq
    rw [← this, cadus, List.length_map, number_length]
  have hll := hbetter.length_eq
  have hch : List.Forall₂ (fun f f' : Fate => f.ok = true → f'.ok = true) (fatesOf slots fates v) (fatesOf slots fates' v) := by
    clear hfates hfates' hn hn' hr hr' hg hg' h
    induction hbetter generalizing slots with
    | nil => simp [fatesOf]
    | cons hx _ ih =>
      cases slots with
      | nil => simp at hlen
      | cons w slots =>
        have := ih slots (by simpa using hlen) (by simpa using hll)
        unfold fatesOf at this ⊢
        rw [List.zip_cons_cons, List.zip_cons_cons, List.filter_cons, List.filter_cons]
        by_cases hw : (w == v) = true
        · rw [if_pos hw, if_pos hw]
          exact .cons hx this
        · rw [if_neg hw, if_neg hw]
          exact this
  refine thoseFrom_sublist _ _ (fun a e => ?_) _ 0
  simp only [Bool.and_eq_true]
  rintro ⟨h1, h2⟩
  refine ⟨?_, h2⟩
  rw [whole_iff] at h1 ⊢
  refine ⟨by rw [← hch.length_eq]; exact h1.1, fun n f hf => ?_⟩
  have hlt : n < (fatesOf slots fates v).length := by rw [hch.length_eq]; exact (List.getElem?_eq_some_iff.1 hf).1
  rcases h1.2 n _ (List.getElem?_eq_getElem hlt) with h3 | h3
  · left
    have := (List.forall₂_iff_get.1 hch).2 n hlt (by rw [← hch.length_eq]; exact hlt)
    simp only [List.get_eq_getElem] at this
    have e := (List.getElem?_eq_some_iff.1 hf).2
    rw [e] at this
    exact this h3
  · exact .inr h3

/-! ## A concrete transmission

The transmission of C114, received without errors and cut behind the first of its four data units. The first packet of channel 1 is in both frames of the channel: it comes out of the whole
recording only. -/

theorem noisy_refl (t : Transmitter) (c : List U8) : t.Noisy c c := by
  refine ⟨rfl, rfl, fun i _ => ?_⟩
  rw [List.filter_eq_nil_iff.2 (by intro a _; simp)]
  simp

theorem exTx_transmission (b : Build) : Transmission b exTransmitter exTxPackets exTxSlots ⟨1, 0, true, true⟩ := by
  refine ⟨exTransmitter_valid, exTxPackets_packets, fun v hv => Nat.le_of_eq (exTxPackets_fill v hv), fun v _ => ?_, fun _ v _ => ?_, rfl, rfl, rfl⟩
  · have := exTx_counters v; omega
  · have := exTx_counters v
    have e : exTransmitter.counter v 0 = exTransmitter.first v := rfl
    omega

theorem exWhole_befalls (cs : List (List U8)) : List.Forall₂ exTransmitter.Befalls cs (cs.map .received) := by
  rw [List.forall₂_map_right_iff]
  exact List.forall₂_same.2 fun c _ => noisy_refl exTransmitter c

theorem exWhole_noticed (t : Transmitter) (slots : List (BitVec 6)) (cs : List (List U8)) : NoticedAll t slots (cs.map .received) := by
  intro v _ n a c _ hl _ _
  exfalso
  have hm := List.mem_of_getElem? hl
  unfold fatesOf at hm
  obtain ⟨x, hx, e⟩ := List.mem_map.1 hm
  have := (List.of_mem_zip (List.mem_filter.1 hx).1).2
  rw [e] at this
  obtain ⟨y, _, hy⟩ := List.mem_map.1 this
  cases hy

theorem records_plain (r : Reader) (cs : List (List U8)) (hr : Smooth r cs.flatten) : Records r cs := by
  refine ⟨cs.map fun c => ([], c), [], cs.flatten, by rw [List.map_map]; exact List.map_id _, ?_, nothing_in_nil, ?_, hr⟩
  · intro u hu i
    obtain ⟨c, _, rfl⟩ := List.mem_map.1 hu
    exact nothing_in_nil i
  · clear hr
    rw [List.append_nil, List.flatMap_map]
    induction cs with
    | nil => rfl
    | cons c cs ih => rw [List.flatten_cons, bits_append, ih, List.flatMap_cons]; rfl

theorem received_bytes (cs : List (List U8)) : (cs.map Fate.received).flatMap Fate.bytes = cs := by
  induction cs with
  | nil => rfl
  | cons c cs ih => rw [List.map_cons, List.flatMap_cons, ih]; rfl

theorem exThose (P : Nat → Nat → Bool) (h1 : P 0 300 = true) (h2 : P 300 430 = false) : those P (exTxPackets 1#6) = [exP1] := by
  have e : exTxPackets 1#6 = [exP1, exP2] := rfl
  have l1 : exP1.length = 300 := by decide +kernel
  have l2 : exP2.length = 130 := by decide +kernel
  rw [e]
  generalize exP1 = q1 at l1 ⊢
  generalize exP2 = q2 at l2 ⊢
  rw [those_eq, thoseFrom_cons, thoseFrom_cons, l1, l2]
  rw [if_pos h1, if_neg (by rw [show 0 + 300 = 300 from rfl, show 300 + 130 = 430 from rfl, h2]; decide)]
  rfl

theorem exFates_of (c0 c1 c2 c3 : List U8) : fatesOf exTxSlots ([c0, c1, c2, c3].map Fate.received) 1#6 = [.received c0, .received c3] := rfl

example (b : Build) (p p1 p2 : RsStage.Params) (r r1 r2 : Reader) (hr : Smooth r (exTransmitter.cadus exTxPackets exTxSlots).flatten)
    (h1 : Smooth r1 ((exTransmitter.cadus exTxPackets exTxSlots).take 1).flatten) (h2 : Smooth r2 ((exTransmitter.cadus exTxPackets exTxSlots).drop 1).flatten)
    (ps ps1 ps2 : BitVec 6 → List (List U8)) (hg : Gives b (bddCodec ccsdsCode) exTransmitter ⟨1, 0, true, true⟩ p r ps)
    (hg1 : Gives b (bddCodec ccsdsCode) exTransmitter ⟨1, 0, true, true⟩ p1 r1 ps1) (hg2 : Gives b (bddCodec ccsdsCode) exTransmitter ⟨1, 0, true, true⟩ p2 r2 ps2) :
    ps 1#6 = ps1 1#6 ++ [exP1] ++ ps2 1#6 := by
  have hl : (exTransmitter.cadus exTxPackets exTxSlots).length = 4 := by unfold cadus; rw [List.length_map, number_length]; rfl
  have hb := exWhole_befalls (exTransmitter.cadus exTxPackets exTxSlots)
  generalize hcs : (exTransmitter.cadus exTxPackets exTxSlots).map Fate.received = fates at hb
  have hn := exWhole_noticed exTransmitter exTxSlots (exTransmitter.cadus exTxPackets exTxSlots)
  rw [hcs] at hn
  have e0 : fates.flatMap Fate.bytes = exTransmitter.cadus exTxPackets exTxSlots := by rw [← hcs, received_bytes]
  have e1 : (fates.take 1).flatMap Fate.bytes = (exTransmitter.cadus exTxPackets exTxSlots).take 1 := by rw [← hcs, ← List.map_take, received_bytes]
  have e2 : (fates.drop 1).flatMap Fate.bytes = (exTransmitter.cadus exTxPackets exTxSlots).drop 1 := by rw [← hcs, ← List.map_drop, received_bytes]
  obtain ⟨cut, _, h3, h4⟩ := C118_cut b (bddCodec ccsdsCode) C113_distance.2 exTransmitter exTxPackets exTxSlots ⟨1, 0, true, true⟩ (exTx_transmission b) fates hb hn 1 r r1 r2
    (by rw [e0]; exact records_plain r _ hr) (by rw [e1]; exact records_plain r1 _ h1) (by rw [e2]; exact records_plain r2 _ h2) p p1 p2 ps ps1 ps2 hg hg1 hg2 1#6 (by decide)
  have hc : cut = [exP1] := by
    rw [h4]
    generalize exTransmitter.cadus exTxPackets exTxSlots = cs at hl hcs
    match cs, hl with
    | [c0, c1, c2, c3], _ =>
      rw [← hcs, exFates_of]
      apply exThose
      · have x1 : (exTxSlots.take 1).count 1#6 * exTransmitter.zoneSize = 215 := rfl
        have d : exTransmitter.straddles 1#6 (exTxSlots.count 1#6) 0 300 = false := by decide +kernel
        have w : exTransmitter.whole [.received c0, .received c3] 0 300 = true := by
          rw [whole_iff]
          refine ⟨by show 300 ≤ 2 * 215; decide, fun n f hf => .inl ?_⟩
          have hm := List.mem_of_getElem? hf
          simp only [List.mem_cons, List.not_mem_nil, or_false] at hm
          rcases hm with rfl | rfl <;> rfl
        rw [x1, d, w]; rfl
      · have x1 : (exTxSlots.take 1).count 1#6 * exTransmitter.zoneSize = 215 := rfl
        rw [x1]; rfl
  rw [h3, hc]

/-- The first data unit lost, the others received. -/
theorem exWorse_befalls (c : List U8) (cs : List (List U8)) : List.Forall₂ exTransmitter.Befalls (c :: cs) (.lost :: cs.map .received) :=
  .cons trivial (exWhole_befalls cs)

theorem exWorse_noticed (slots : List (BitVec 6)) (cs : List (List U8)) : NoticedAll exTransmitter slots (.lost :: cs.map .received) := by
  intro v _ n a c ha hl _ _
  left
  cases slots with
  | nil => simp [fatesOf] at ha
  | cons w slots =>
    have hno : ∀ m : Nat, (fatesOf slots (cs.map .received) v)[m]? ≠ some Fate.lost := by
      intro m hm
      have hm := List.mem_of_getElem? hm
      unfold fatesOf at hm
      obtain ⟨x, hx, e⟩ := List.mem_map.1 hm
      have := (List.of_mem_zip (List.mem_filter.1 hx).1).2
      rw [e] at this
      obtain ⟨y, _, hy⟩ := List.mem_map.1 this
      cases hy
    unfold fatesOf at ha hl hno
    rw [List.zip_cons_cons, List.filter_cons] at ha hl
    exfalso
    split at hl
    · rw [List.map_cons, List.getElem?_cons_succ] at hl
      exact hno _ hl
    · exact hno _ hl

/-- C119 on the same transmission: with the first data unit missing nothing comes out that does not come out of the whole recording. -/
example (b : Build) (p p' : RsStage.Params) (c : List U8) (cs : List (List U8)) (hcs : exTransmitter.cadus exTxPackets exTxSlots = c :: cs) (r r' : Reader) (hr : Smooth r cs.flatten)
    (hr' : Smooth r' (c :: cs).flatten) (ps ps' : BitVec 6 → List (List U8)) (hg : Gives b (bddCodec ccsdsCode) exTransmitter ⟨1, 0, true, true⟩ p r ps)
    (hg' : Gives b (bddCodec ccsdsCode) exTransmitter ⟨1, 0, true, true⟩ p' r' ps') (v : BitVec 6) (hv : v ≠ 63) : (ps v).Sublist (ps' v) := by
  refine C119_better b (bddCodec ccsdsCode) C113_distance.2 exTransmitter exTxPackets exTxSlots ⟨1, 0, true, true⟩ (exTx_transmission b) (.lost :: cs.map .received) ((c :: cs).map .received)
    (by rw [hcs]; exact exWorse_befalls c cs) (by rw [hcs]; exact exWhole_befalls _) (exWorse_noticed _ cs) (exWhole_noticed _ _ _) ?_ r r' ?_ ?_ p p' ps ps' hg hg' v hv
  · refine .cons (fun h => by cases h) ?_
    exact List.forall₂_same.2 fun _ _ h => h
  · rw [List.flatMap_cons, received_bytes]
    exact records_plain r cs hr
  · rw [received_bytes]
    exact records_plain r' _ hr'

end Spec.Transmitter

end Ccsds
