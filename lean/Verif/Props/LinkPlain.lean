import Verif.Props.LinkFraming
/-!
# C129  `ccsds framing` without Reed–Solomon on the recording of a transmission
-/
namespace Ccsds
open Spec Pipeline

namespace Spec.Transmitter

/-! ## Specification -/

/-- The frame `g` is the received data unit, unchecked. -/
structure Unchecked (t : Transmitter) (x : (BitVec 6 × Nat) × Fate) (g : Frame) : Prop where
  scid : g.header.scid = t.scid.setWidth 16
  vcid : g.header.vcid = x.1.1.setWidth 16
  counter : g.header.counter.toNat = t.counter x.1.1 x.1.2
  integrity : g.integrity = none
  data : ∀ rx ∈ x.2.bytes, g.data = t.blockIn rx

/-- The command line fits the transmitter, but no Reed–Solomon decoding is asked for; the length is that of frame and check symbols. -/
structure SuitsPlain (a : Framing.Args) (t : Transmitter) : Prop where
  length : a.length = t.blockSize
  pn : a.pn = t.randomized
  rs : a.reedSolomon = none

/-- The counters of `n` data units that were received and not checked. -/
structure CountedPlain (t : Transmitter) (c : Framing.Tally) (n : Nat) : Prop where
  frames : c.frames = n
  bytes : c.bytes = n * t.blockSize
  notPerformed : c.notPerformed = n
  ok : c.ok = 0
  corrected : c.corrected = 0
  uncorrectable : c.uncorrectable = 0
  error : c.error = 0

end Spec.Transmitter

open Spec.Transmitter

/-! ## Proofs -/

theorem forall₂_of_heard {α : Type} (g : α → Fate) (L : List α) (c : List U8 → List U8) (ds : List (List U8)) (h : ds = (L.flatMap fun x => (g x).bytes).map c) :
    List.Forall₂ (fun x d => ∀ rx ∈ (g x).bytes, d = c rx) (L.filter fun x => (g x).heard) ds := by
  subst h
  induction L with
  | nil => exact .nil
  | cons x L ih =>
    rw [List.flatMap_cons, List.map_append, List.filter_cons]
    cases hf : g x with
    | lost => simpa [Fate.heard, Fate.bytes] using ih
    | received y =>
      simp only [Fate.heard, Fate.bytes, ↓reduceIte, List.map_cons, List.map_nil, List.singleton_append]
      exact .cons (by intro rx hrx; rw [hf] at hrx; simp only [List.mem_singleton] at hrx; rw [hrx]) ih
    | spoiled y =>
      simp only [Fate.heard, Fate.bytes, ↓reduceIte, List.map_cons, List.map_nil, List.singleton_append]
      exact .cons (by intro rx hrx; rw [hf] at hrx; simp only [List.mem_singleton] at hrx; rw [hrx]) ih

theorem forall₂_both {α β γ : Type} {R : α → β → Prop} {S : α → γ → Prop} {Q : γ → β → Prop} {T : α → γ → Prop} (hT : ∀ a b c, R a b → S a c → Q c b → T a c) :
    ∀ {as : List α} {bs : List β} {cs : List γ}, List.Forall₂ R as bs → List.Forall₂ S as cs → List.Forall₂ Q cs bs → List.Forall₂ T as cs := by
  intro as
  induction as with
  | nil => intro bs cs _ h _; cases h; exact .nil
  | cons a as ih =>
    intro bs cs h1 h2 h3
    cases h1 with
    | cons r1 r2 =>
      cases h2 with
      | cons s1 s2 =>
        cases h3 with
        | cons q1 q2 => exact .cons (hT _ _ _ r1 s1 q1) (ih r2 s2 q2)

/-- C129 (frames). The pipeline without Reed–Solomon on the recording of a transmission over a bad link, as in C117: it ends, with one frame for each data unit received, damaged or
not, in order, with the header that was sent and the block as it was received. -/
theorem C129_frames (b : Build) (t : Transmitter) (ht : t.Valid) (packets : BitVec 6 → List (List U8))
    (slots : List (BitVec 6)) (hsent : ∀ v, v ≠ 63 → slots.count v * t.zoneSize ≤ (packets v).flatten.length)
    (hchecks : b.overflowChecks = true → ∀ v, v ≠ 63 → t.counter v 0 + slots.count v ≤ 2 ^ 24)
    (fates : List Fate) (hfates : List.Forall₂ t.Befalls (t.cadus packets slots) fates) (r : Reader) (hr : Records r (fates.flatMap Fate.bytes)) :
    ∃ frames, Outputs b ⟨t.randomized, none, t.blockSize⟩ r frames true ∧
      List.Forall₂ t.Unchecked (heardSlots slots fates) frames ∧ gapsOn frames 63 = 0 ∧
      ∀ v : BitVec 6, v ≠ 63 →
        (t.counter v 0 + slots.count v ≤ 2 ^ 24 → gapsOn frames (v.setWidth 16) = lostInside (fatesOf slots fates v)) ∧
        (slots.count v ≤ 2 ^ 24 → gapsOn frames (v.setWidth 16) + (if crossed (fatesOf slots fates v) (t.rollAt v) then 1 else 0) =
          lostInside (fatesOf slots fates v) + if seam (fatesOf slots fates v) (t.rollAt v) then 2 ^ 32 else 0) := by
  have hdep := ht.depth
  have hff := fill_frame t ht
  have hbf : t.blockSize = t.frameSize + 32 * t.depth := rfl
  -- the headers and gaps are those of a run with Reed–Solomon
  obtain ⟨o, hI, hvf⟩ : ∃ o : RS.Opts, o.interleave.toNat = t.depth ∧ o.virtualFill = t.fill := by
    refine ⟨⟨BitVec.ofNat 8 t.depth, t.fill, true, true⟩, ?_, rfl⟩
    show (BitVec.ofNat 8 t.depth).toNat = t.depth
    rw [BitVec.toNat_ofNat, Nat.mod_eq_of_lt]
    have := hdep.2
    omega
  obtain ⟨⟨s, hs, hend⟩, hall⟩ := (C127_frames b (bddCodec ccsdsCode) C113_distance.2 t ht packets slots hsent hchecks fates hfates r hr o hI hvf ⟨1, 1⟩).imp_left (fun h => h (by decide))
  obtain ⟨hshow, hg63, hgap⟩ := hall s hs hend
  clear hall
  obtain ⟨units, post, S, hunits, hgapless, hpost, hS, hr⟩ := hr
  unfold cadus at hfates
  rw [List.forall₂_map_left_iff] at hfates
  have hfl : (number [] slots).length = fates.length := hfates.length_eq
  have hL2 : ((number [] slots).zip fates).map (·.2) = fates := List.map_snd_zip (by omega)
  have hub : ∀ u ∈ units, u.2 = marker ++ u.2.drop 4 ∧ (u.2.drop 4).length = t.blockSize := by
    intro u hu
    have : u.2 ∈ fates.flatMap Fate.bytes := by rw [← hunits]; exact List.mem_map.2 ⟨u, hu, rfl⟩
    obtain ⟨f, hf, hb⟩ := List.mem_flatMap.1 this
    rw [← hL2] at hf
    obtain ⟨x, hx, rfl⟩ := List.mem_map.1 hf
    have hbef := (List.forall₂_iff_zip.1 hfates).2 hx
    have hroom : x.1.1 ≠ 63 → (x.1.2 + 1) * t.zoneSize ≤ (packets x.1.1).flatten.length := fun hv =>
      Nat.le_trans (Nat.mul_le_mul_right _ (number_lt slots x.1 (List.of_mem_zip hx).1).2) (hsent x.1.1 hv)
    cases hf : x.2 with
    | lost => rw [hf] at hb; simp [Fate.bytes] at hb
    | received y =>
      rw [hf] at hb hbef
      simp only [Fate.bytes, List.mem_singleton] at hb
      rw [hb]
      exact (start_intact t ht _ _ _ hroom y hbef.length hbef.start).2
    | spoiled y =>
      rw [hf] at hb hbef
      simp only [Fate.bytes, List.mem_singleton] at hb
      rw [hb]
      exact (start_intact t ht _ _ _ hroom y hbef.length hbef.start).2
  have hcarries := link_carries t units post hub hgapless hpost S hS
  obtain ⟨frames, ended, h1, h2, h3, h4, h5⟩ := C52_until b t.randomized r S t.blockSize _ post hr hcarries
  have hU : (units.map fun u => (u.1, t.unrand (u.2.drop 4))).map (·.2) = (fates.flatMap Fate.bytes).map t.blockIn := by
    rw [List.map_map, ← hunits, List.map_map]; rfl
  generalize (units.map fun u => (u.1, t.unrand (u.2.drop 4))).map (·.2) = U at hU h2 h3 h4 h5
  obtain ⟨o', p', frames', ended', he, hout, hreach⟩ := hs
  have he := Option.some.inj he
  cases he
  have hsame : frames' = frames := (C52_deterministic b ⟨t.randomized, none, t.blockSize⟩ r frames' frames ended' ended hout h1).1
  subst hsame
  have hflen : ∀ f ∈ frames', f.data.length + o.virtualFill = 255 * o.interleave.toNat := by
    rintro f hf
    obtain ⟨e, hy, _⟩ := hout
    rw [Pipeline.yields_length hy f hf, hI, hvf]
    show t.blockSize + t.fill = _
    omega
  obtain ⟨outs, ho, hrun⟩ := C42_rs ⟨1, 1⟩ (bddCodec ccsdsCode) ccsdsCode C113_distance.2 o frames' (by rw [hI]; exact hdep.1) (by rw [hI, hvf]; omega) (fun f hf _ => hflen f hf)
  have hgot := (hrun s hreach).2.2 hend
  have hjob : List.Forall₂ (fun f g => g.header = f.header ∧ g.missing = f.missing) frames' s.got := by
    rw [hgot]
    clear hrun hgot h1 h2 h3 h4 h5 hout hreach hflen
    induction frames' generalizing outs with
    | nil =>
      cases outs with
      | nil => exact .nil
      | cons g outs => simp at ho
    | cons f fs ih =>
      cases outs with
      | nil => simp at ho
      | cons g outs =>
        rw [List.map_cons, List.map_cons] at ho
        have ho := List.cons.inj ho
        exact .cons (job_header ho.1.symm) (ih outs ho.2)
  have hgaps : ∀ v, gapsOn frames' v = gapsOn s.got v := by
    intro v
    clear hshow hg63 hgap h1 h2 h3 h4 h5 hout hreach hflen hrun hgot ho hend
    generalize s.got = gs at hjob
    induction hjob with
    | nil => rfl
    | cons h _ ih => rw [gapsOn_cons, gapsOn_cons, h.1, h.2, ih]
  have hheardlen : (heardSlots slots fates).length = U.length := by
    have := (forall₂_of_heard (fun x : (BitVec 6 × Nat) × Fate => x.2) ((number [] slots).zip fates) t.blockIn _ rfl).length_eq
    unfold heardSlots
    rw [this, hU, List.length_map, List.length_map]
    rw [show (((number [] slots).zip fates).flatMap fun x => x.2.bytes) = (((number [] slots).zip fates).map (·.2)).flatMap Fate.bytes by rw [List.flatMap_map], hL2]
  have hlen : frames'.length = U.length := by rw [hjob.length_eq, ← hshow.length_eq, hheardlen]
  have hdata : frames'.map (·.data) = (fates.flatMap Fate.bytes).map t.blockIn := by rw [h2, hlen, List.take_length, hU]
  have hended : ended = true := by
    cases ended with
    | true => rfl
    | false =>
      obtain ⟨_, d, _, _, e, _⟩ := h5 rfl
      have := (List.getElem?_eq_some_iff.1 e).1
      omega
  rw [hended] at h1
  have hd := forall₂_of_heard (fun x : (BitVec 6 × Nat) × Fate => x.2) ((number [] slots).zip fates) t.blockIn (frames'.map (·.data)) (by
    rw [hdata]
    rw [show (((number [] slots).zip fates).flatMap fun x => x.2.bytes) = (((number [] slots).zip fates).map (·.2)).flatMap Fate.bytes by rw [List.flatMap_map], hL2])
  rw [List.forall₂_map_right_iff] at hd
  have hint : ∀ f ∈ frames', f.integrity = none := by
    intro f hf
    obtain ⟨i, hi⟩ := List.mem_iff_getElem?.1 hf
    have hil := (List.getElem?_eq_some_iff.1 hi).1
    exact (h3 i _ f (List.getElem?_eq_getElem (by omega)) hi).2.2.1
  have hd' : List.Forall₂ (fun (x : (BitVec 6 × Nat) × Fate) (f : Frame) => (∀ rx ∈ x.2.bytes, f.data = t.blockIn rx) ∧ f.integrity = none) (heardSlots slots fates) frames' := by
    rw [List.forall₂_iff_zip] at hd ⊢
    exact ⟨hd.1, fun hx => ⟨hd.2 hx, hint _ (List.of_mem_zip hx).2⟩⟩
  refine ⟨frames', h1, forall₂_both (fun x g f hx hf hfg => ?_) hshow hd' hjob, by rw [hgaps]; exact hg63, fun v hv => ?_⟩
  · exact ⟨by rw [← hfg.1]; exact hx.scid, by rw [← hfg.1]; exact hx.vcid, by rw [← hfg.1]; exact hx.counter, hf.2, hf.1⟩
  · rw [hgaps]; exact hgap v hv

theorem asksFor_plain {t : Transmitter} {x : (BitVec 6 × Nat) × Fate} {g : Frame} (a : Framing.Args) (h : t.Unchecked x g) : asksFor a x.1.1 = true ↔ decide (Wanted a g) = true := by
  have h63 : g.header.vcid = 63 ↔ x.1.1 = 63 := by
    rw [h.vcid]
    exact ⟨fun e => wide_inj (w := 63#6) e, fun e => by rw [e]; decide⟩
  rw [decide_eq_true_eq]
  unfold asksFor Wanted
  rw [h63, h.vcid]
  by_cases h1 : x.1.1 = 63
  · simp [h1, and_assoc]
  · have h1' : ¬ x.1.1 = 63#6 := h1
    simp [h1']

theorem plain_counted {t : Transmitter} {gs : List Frame} (h : ∀ g ∈ gs, g.integrity = none ∧ g.data.length = t.blockSize) (c : Framing.Tally) (hc : Tallies c gs) :
    CountedPlain t c gs.length := by
  have hz : ∀ p : Option Integrity → Bool, p none = false → (gs.countP fun g => p g.integrity) = 0 := by
    intro p hp
    rw [List.countP_eq_zero]
    intro g hg
    rw [(h g hg).1, hp]; simp
  refine ⟨hc.frames, ?_, ?_, ?_, ?_, ?_, ?_⟩
  · rw [hc.bytes]
    clear hc hz
    induction gs with
    | nil => simp
    | cons g gs ih =>
      rw [List.map_cons, List.sum_cons, ih (fun x hx => h x (List.mem_cons_of_mem _ hx)), (h g (by simp)).2, List.length_cons, Nat.add_mul]
      omega
  · rw [hc.notPerformed, List.countP_eq_length]
    intro g hg
    simp [(h g hg).1]
  · rw [hc.ok]; exact hz (fun i => decide (i = some .ok)) (by decide)
  · rw [hc.corrected]; exact hz (fun i => decide (i = some .corrected)) (by decide)
  · rw [hc.uncorrectable]; exact hz (fun i => decide (i = some .uncorrectable ∨ i = some .notCorrected)) (by decide)
  · rw [hc.error]; exact hz (fun i => decide (i = some .failed)) (by decide)

theorem forall₂_mem_right {α β : Type} {R : α → β → Prop} {as : List α} {bs : List β} (h : List.Forall₂ R as bs) : ∀ y ∈ bs, ∃ x ∈ as, R x y := by
  intro y hy
  obtain ⟨n, hn, e⟩ := List.getElem_of_mem hy
  have hn' : n < as.length := by rw [h.length_eq]; exact hn
  have := h.get hn' hn
  simp only [List.get_eq_getElem] at this
  rw [e] at this
  exact ⟨_, List.getElem_mem hn', this⟩

theorem forall₂_mem_left {α β : Type} {R : α → β → Prop} {as : List α} {bs : List β} (h : List.Forall₂ R as bs) : ∀ x ∈ as, ∃ y ∈ bs, R x y := by
  intro x hx
  obtain ⟨n, hn, e⟩ := List.getElem_of_mem hx
  have hn' : n < bs.length := by rw [← h.length_eq]; exact hn
  have := h.get hn hn'
  simp only [List.get_eq_getElem] at this
  rw [e] at this
  exact ⟨_, List.getElem_mem hn', this⟩

/-- C129. `ccsds framing` without Reed–Solomon, its length that of frame and check symbols, on the recording of a transmission over a bad link: it ends; it writes, in order, the blocks,
with their check symbols, of all data units received on a channel asked for, damaged or not; its summary counts them as not checked, and says how many were lost as in C127. -/
theorem C129_command (b : Build) (k : Codec) (t : Transmitter) (ht : t.Valid) (packets : BitVec 6 → List (List U8))
    (slots : List (BitVec 6)) (hsent : ∀ v, v ≠ 63 → slots.count v * t.zoneSize ≤ (packets v).flatten.length)
    (hchecks : b.overflowChecks = true → ∀ v, v ≠ 63 → t.counter v 0 + slots.count v ≤ 2 ^ 24)
    (fates : List Fate) (hfates : List.Forall₂ t.Befalls (t.cadus packets slots) fates) (r : Reader) (hr : Records r (fates.flatMap Fate.bytes))
    (a : Framing.Args) (ha : SuitsPlain a t) (workers : Nat) :
    (∃ s w, Framing.Runs b k a workers r s w) ∧
    ∀ s w, Framing.Runs b k a workers r s w →
      w = (if a.output then ((heardSlots slots fates).filter fun x => asksFor a x.1.1).flatMap (fun x => x.2.bytes.map t.blockIn) else []) ∧
      CountedPlain t s.tally ((heardSlots slots fates).countP fun x => asksFor a x.1.1) ∧
      s.vcids.Pairwise (fun x y => x.vcid < y.vcid) ∧
      (∀ v : BitVec 6, (∃ i ∈ s.vcids, i.vcid = v.setWidth 16) ↔ asksFor a v = true ∧ ∃ x ∈ heardSlots slots fates, x.1.1 = v) ∧
      ∀ i ∈ s.vcids, ∃ v : BitVec 6, i.vcid = v.setWidth 16 ∧ CountedPlain t i.tally ((heardSlots slots fates).countP fun x => x.1.1 = v) ∧
        (v = 63 → i.tally.missing = 0) ∧
        (v ≠ 63 → t.counter v 0 + slots.count v ≤ 2 ^ 24 → i.tally.missing = lostInside (fatesOf slots fates v)) ∧
        (v ≠ 63 → slots.count v ≤ 2 ^ 24 → i.tally.missing + (if crossed (fatesOf slots fates v) (t.rollAt v) then 1 else 0) =
          lostInside (fatesOf slots fates v) + if seam (fatesOf slots fates v) (t.rollAt v) then 2 ^ 32 else 0) := by
  have hcfg : Framing.config a workers = ⟨t.randomized, none, t.blockSize⟩ := by
    unfold Framing.config
    rw [ha.rs]
    simp only [Option.getD_none, ha.length]
    have hp := ha.pn
    cases hpn : a.pn <;> rw [hpn] at hp <;> rw [← hp] <;> rfl
  obtain ⟨frames, hout, hshow, hfillgap, hgap⟩ := C129_frames b t ht packets slots hsent hchecks fates hfates r hr
  constructor
  · obtain ⟨s, w, hfin⟩ := (C57_pipeline b k a workers r).1 frames true (by rw [hcfg]; exact hout) ha.rs
    exact ⟨s, w, .plain ha.rs (by rw [hcfg]; exact hout) hfin⟩
  · intro s w hrun
    cases hrun with
    | rs hn => rw [ha.rs] at hn; cases hn
    | @plain frames' _ _ _ hout' hfin =>
      rw [hcfg] at hout'
      have := (C52_deterministic b _ r frames' frames true true hout' hout).1
      subst this
      obtain ⟨hrep, hwr⟩ := (C57_summary a frames').1 s w hfin
      have hfacts : ∀ g ∈ frames', g.integrity = none ∧ g.data.length = t.blockSize := by
        intro g hg
        obtain ⟨x, _, hx⟩ := forall₂_mem_right hshow g hg
        obtain ⟨e, hy, _⟩ := hout
        exact ⟨hx.integrity, Pipeline.yields_length hy g hg⟩
      have hwant : List.Forall₂ t.Unchecked ((heardSlots slots fates).filter fun x => asksFor a x.1.1) (wanted a frames') := by
        unfold wanted
        exact List.rel_filter (fun {x g} h => asksFor_plain a h) hshow
      have hwm : ∀ g ∈ wanted a frames', g ∈ frames' := fun g hg => (List.mem_filter.1 hg).1
      have hline : ∀ v : BitVec 6, asksFor a v = true → ofVcid (wanted a frames') (v.setWidth 16) = ofVcid frames' (v.setWidth 16) := by
        intro v hv
        unfold ofVcid wanted
        rw [List.filter_filter]
        apply List.filter_congr
        intro g hg
        by_cases he : g.header.vcid = v.setWidth 16
        · obtain ⟨x, hx, hs⟩ := forall₂_mem_right hshow g hg
          have hxv : x.1.1 = v := wide_inj (by rw [← hs.vcid]; exact he)
          have := (asksFor_plain a hs).1 (by rw [hxv]; exact hv)
          rw [this]; simp
        · simp [he]
      refine ⟨?_, ?_, hrep.ascending, ?_, ?_⟩
      · rw [hwr, ha.length]
        split
        · have hall : ((wanted a frames').filter fun f => decide (Acceptable f)) = wanted a frames' := by
            rw [List.filter_eq_self]
            intro g hg
            rw [decide_eq_true_eq]
            exact .inl (hfacts g (hwm g hg)).1
          rw [hall]
          have hheard : ∀ x ∈ (heardSlots slots fates).filter fun x => asksFor a x.1.1, x.2.heard = true := fun x hx => (List.mem_filter.1 (List.mem_filter.1 hx).1).2
          have hlen : ∀ g ∈ wanted a frames', g.data.length = t.blockSize := fun g hg => (hfacts g (hwm g hg)).2
          clear hall hline hrep hwr hwm
          generalize wanted a frames' = gs at hwant hlen
          generalize (heardSlots slots fates).filter (fun x => asksFor a x.1.1) = xs at hwant hheard
          induction hwant with
          | nil => rfl
          | @cons x g xs gs h0 _ ih =>
            rw [List.map_cons, List.flatMap_cons, ih (fun y hy => hlen y (List.mem_cons_of_mem _ hy)) (fun y hy => hheard y (List.mem_cons_of_mem _ hy))]
            obtain ⟨rx, hrx⟩ := heard_single (hheard x (by simp))
            rw [← hlen g (by simp), List.take_length, hrx, h0.data rx (by rw [hrx]; simp)]
            rfl
        · rfl
      · have := plain_counted (fun g hg => hfacts g (hwm g hg)) _ hrep.total
        rw [← hwant.length_eq, ← List.countP_eq_length_filter] at this
        exact this
      · intro v
        rw [hrep.channels]
        constructor
        · rintro ⟨g, hg, e⟩
          obtain ⟨x, hx, hs⟩ := forall₂_mem_right hwant g hg
          have hxv := wide_inj (hs.vcid.symm.trans e)
          have hm := List.mem_filter.1 hx
          exact ⟨by rw [← hxv]; exact hm.2, _, hm.1, hxv⟩
        · rintro ⟨hv, x, hx, rfl⟩
          obtain ⟨g, hg, hs⟩ := forall₂_mem_left hwant x (List.mem_filter.2 ⟨hx, hv⟩)
          exact ⟨g, hg, hs.vcid⟩
      · intro i hi
        obtain ⟨g, hg, e⟩ := (hrep.channels i.vcid).1 ⟨i, hi, rfl⟩
        obtain ⟨x, hx, hs⟩ := forall₂_mem_right hwant g hg
        have hm := List.mem_filter.1 hx
        refine ⟨x.1.1, by rw [← e, hs.vcid], ?_⟩
        have hc := hrep.counts i hi
        rw [← e, hs.vcid, hline _ hm.2] at hc
        have hch : List.Forall₂ t.Unchecked ((heardSlots slots fates).filter fun y => y.1.1 = x.1.1) (ofVcid frames' (x.1.1.setWidth 16)) := by
          unfold ofVcid
          refine List.rel_filter (fun {y g} h => ?_) hshow
          simp only [decide_eq_true_eq]
          rw [h.vcid]
          exact ⟨fun e => by rw [e], fun e => wide_inj e⟩
        refine ⟨?_, ?_, ?_, ?_⟩
        · have := plain_counted (gs := ofVcid frames' (x.1.1.setWidth 16)) (fun g hg => hfacts g (List.mem_filter.1 hg).1) _ hc
          rw [← hch.length_eq, ← List.countP_eq_length_filter] at this
          exact this
        · intro h63
          rw [hc.missing, h63]
          exact hfillgap
        · intro h63 hroll
          rw [hc.missing]
          exact (hgap _ h63).1 hroll
        · intro h63 hroll
          rw [hc.missing]
          exact (hgap _ h63).2 hroll

/-! A concrete case: the recording of the example of C127. Both data units of channel 1 are written, the damaged one as well. -/
namespace FramingEx

def plainArgs : Framing.Args := ⟨140, true, false, none, true, true, 0, none, 16, [1, 63], [2], true⟩
theorem plain_suits : SuitsPlain plainArgs tx := ⟨rfl, rfl, rfl⟩

example (b : Build) (k : Codec) (r : Reader) (hr : Smooth r (unit 1 0 ++ (unit 1 2).set 100 7 ++ unit 63 0)) :
    (∃ s w, Framing.Runs b k plainArgs 2 r s w) ∧
    ∀ s w, Framing.Runs b k plainArgs 2 r s w →
      w = [tx.blockIn (unit 1 0), tx.blockIn ((unit 1 2).set 100 7)] ∧ s.tally.frames = 2 ∧ s.tally.notPerformed = 2 ∧ ∀ i ∈ s.vcids, i.vcid = 1 → i.tally.missing = 1 := by
  have hrec : Records r (fates.flatMap Fate.bytes) := by
    have : fates.flatMap Fate.bytes = [unit 1 0, (unit 1 2).set 100 7, unit 63 0] := rfl
    rw [this]
    exact records_plain r _ (by simpa using hr)
  obtain ⟨h1, h2⟩ := C129_command b k tx tx_valid exTxPackets slots sent (fun _ v _ => counters v) fates befalls r hrec plainArgs plain_suits 2
  refine ⟨h1, fun s w hw => ?_⟩
  obtain ⟨a1, a2, _, _, a5⟩ := h2 s w hw
  have hh : (heardSlots slots fates).filter (fun x => asksFor plainArgs x.1.1) = [((1#6, 0), .received (unit 1 0)), ((1#6, 2), .received ((unit 1 2).set 100 7))] := by
    unfold heardSlots fates
    generalize unit 1 0 = c0
    generalize (unit 1 2).set 100 7 = c1
    generalize unit 63 0 = c2
    rfl
  rw [List.countP_eq_length_filter, hh] at a2
  rw [hh] at a1
  refine ⟨?_, a2.frames, a2.notPerformed, fun i hi hv => ?_⟩
  · rw [a1]
    generalize unit 1 0 = c0
    generalize (unit 1 2).set 100 7 = c1
    rfl
  · obtain ⟨v, e, _, _, h3, _⟩ := a5 i hi
    rw [hv] at e
    have hv1 : v = 1#6 := (wide_inj (v := 1#6) e).symm
    subst hv1
    rw [h3 (by decide) (counters _)]
    unfold fates
    generalize unit 1 0 = c0
    generalize (unit 1 2).set 100 7 = c1
    generalize unit 63 0 = c2
    rfl

end FramingEx

end Ccsds
