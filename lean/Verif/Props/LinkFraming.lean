import Verif.Props.Cut
import Verif.Props.Framing
/-!
# C127  What `ccsds framing` makes of the recording of a transmission
-/
namespace Ccsds
open Spec Pipeline

namespace Spec.Transmitter

/-! ## Specification -/

/-- The data units that were received, repairable or not, each with its channel and its number on the channel. -/
def heardSlots (slots : List (BitVec 6)) (fates : List Fate) : List ((BitVec 6 × Nat) × Fate) := ((number [] slots).zip fates).filter fun x => x.2.heard

/-- What is behind the marker of a received data unit, with the randomization taken off. -/
def blockIn (t : Transmitter) (rx : List U8) : List U8 := if t.randomized then randomize (rx.drop 4) else rx.drop 4

/-- The frame can be had from this data unit, which was received: it can be repaired, and this is asked for, or there is nothing to repair. -/
def usable (t : Transmitter) (packets : BitVec 6 → List (List U8)) (repair : Bool) (x : (BitVec 6 × Nat) × Fate) : Bool :=
  match x.2 with
  | .received rx => repair || rx = t.cadu (packets x.1.1) x.1.1 x.1.2
  | _ => false

/-- What the check of this data unit should say. -/
def verdict (t : Transmitter) (packets : BitVec 6 → List (List U8)) (repair : Bool) (x : (BitVec 6 × Nat) × Fate) : Option Integrity :=
  if x.1.1 = 63 then none
  else match x.2 with
    | .received rx => some (if rx = t.cadu (packets x.1.1) x.1.1 x.1.2 then .ok else if repair then .corrected else .notCorrected)
    | _ => some (if repair then .uncorrectable else .notCorrected)

/-- The frame `g` is what the receiver should show for this data unit. -/
structure Shows (t : Transmitter) (packets : BitVec 6 → List (List U8)) (repair : Bool) (x : (BitVec 6 × Nat) × Fate) (g : Frame) : Prop where
  scid : g.header.scid = t.scid.setWidth 16
  vcid : g.header.vcid = x.1.1.setWidth 16
  counter : g.header.counter.toNat = t.counter x.1.1 x.1.2
  integrity : g.integrity = t.verdict packets repair x
  /-- the frame that was sent, if it can be had -/
  sent : x.1.1 ≠ 63 → t.usable packets repair x = true → g.data = t.frame (packets x.1.1) x.1.1 x.1.2
  /-- otherwise, and of fill, what was received is left as it is -/
  left : (x.1.1 ≠ 63 → t.usable packets repair x = false) → ∀ rx ∈ x.2.bytes, g.data = t.blockIn rx

/-- How many of a row of data units were lost between the first and the last that were received. -/
def lostInside (fs : List Fate) : Nat :=
  ((((fs.dropWhile fun f => !f.heard).reverse).dropWhile fun f => !f.heard).countP fun f => !f.heard)

example : lostInside [.lost, .received [1], .lost, .lost, .spoiled [], .lost, .received [], .lost] = 3 := rfl
example : lostInside [.lost, .lost] = 0 := rfl

/-- The number of the first frame behind the start that has counter 0. -/
def rollAt (t : Transmitter) (v : BitVec 6) : Nat := 2 ^ 24 - t.counter v 0

/-- Something was received before number `n` and something from there on. -/
def crossed (fs : List Fate) (n : Nat) : Bool := (fs.take n).any Fate.heard && (fs.drop n).any Fate.heard

/-- Both number `n - 1` and number `n` were received. -/
def seam (fs : List Fate) (n : Nat) : Bool := (fs[n - 1]?).any Fate.heard && (fs[n]?).any Fate.heard

/-! ### The command -/

/-- The command line fits the transmitter. -/
structure Suits (a : Framing.Args) (t : Transmitter) : Prop where
  length : a.length = t.frameSize
  pn : a.pn = t.randomized
  rs : ∃ il : U8, a.reedSolomon = some il ∧ il.toNat = t.depth
  fill : a.virtualfill = t.fill

/-- The command line asks for the frames of channel `v`. -/
def asksFor (a : Framing.Args) (v : BitVec 6) : Bool :=
  (v ≠ 63 || a.keepFill) && (a.incl.isEmpty || a.incl.contains (v.setWidth 16)) && !a.excl.contains (v.setWidth 16)

/-- What should be written for it: the frame that was sent, if it can be had; of fill, whatever was received; otherwise nothing. -/
def toWrite (t : Transmitter) (packets : BitVec 6 → List (List U8)) (repair : Bool) (x : (BitVec 6 × Nat) × Fate) : List (List U8) :=
  if x.1.1 = 63 then x.2.bytes.map fun rx => (t.blockIn rx).take t.frameSize
  else if t.usable packets repair x then [t.frame (packets x.1.1) x.1.1 x.1.2] else []

/-- The counters of these data units, which were received. -/
structure Counted (t : Transmitter) (packets : BitVec 6 → List (List U8)) (repair : Bool) (c : Framing.Tally) (xs : List ((BitVec 6 × Nat) × Fate)) : Prop where
  frames : c.frames = xs.length
  ok : c.ok = xs.countP fun x => t.verdict packets repair x = some .ok
  corrected : c.corrected = xs.countP fun x => t.verdict packets repair x = some .corrected
  uncorrectable : c.uncorrectable = xs.countP fun x => x.1.1 ≠ 63 ∧ t.usable packets repair x = false
  notPerformed : c.notPerformed = xs.countP fun x => x.1.1 = 63
  error : c.error = 0
  /-- frames that can be had count without check symbols, others with them -/
  bytes : c.bytes = (xs.map fun x => if x.1.1 ≠ 63 ∧ t.usable packets repair x = true then t.frameSize else t.blockSize).sum

/-! ## Proofs -/

theorem dropWhile_mid {α : Type} (p : α → Bool) (P R : List α) (h : α) (hh : p h = false) : (P ++ h :: R).dropWhile p = P.dropWhile p ++ h :: R := by
  induction P with
  | nil => simp [hh]
  | cons a P ih =>
    rw [List.cons_append, List.dropWhile_cons, List.dropWhile_cons, ih]
    cases p a <;> simp

theorem dropWhile_all {α : Type} (p : α → Bool) (R Q : List α) (hR : ∀ x ∈ R, p x = true) : (R ++ Q).dropWhile p = Q.dropWhile p := by
  induction R with
  | nil => rfl
  | cons a R ih => rw [List.cons_append, List.dropWhile_cons, if_pos (hR a (by simp)), ih fun x hx => hR x (by simp [hx])]

theorem lostInside_mid (P R : List Fate) (h : Fate) (hh : h.heard = true) (hR : ∀ x ∈ R, x.heard = false) :
    lostInside (P ++ h :: R) = (P.dropWhile fun f => !f.heard).countP fun f => !f.heard := by
  unfold lostInside
  rw [dropWhile_mid _ P R h (by simp [hh]), List.reverse_append, List.reverse_cons, List.append_assoc,
    dropWhile_all _ R.reverse _ (fun x hx => by simp [hR x (by simpa using hx)]), List.singleton_append, List.dropWhile_cons]
  simp [hh]

theorem lostInside_none (R : List Fate) (hR : ∀ x ∈ R, x.heard = false) : lostInside R = 0 := by
  unfold lostInside
  have : R.dropWhile (fun f => !f.heard) = [] := by
    have := dropWhile_all (fun f : Fate => !f.heard) R [] (fun x hx => by simp [hR x hx])
    simpa using this
  rw [this]; rfl

theorem lostInside_first (R : List Fate) (h : Fate) (hh : h.heard = true) (hR : ∀ x ∈ R, x.heard = false) : lostInside (R ++ [h]) = 0 := by
  rw [lostInside_mid R [] h hh (by simp)]
  have : R.dropWhile (fun f => !f.heard) = [] := by
    have := dropWhile_all (fun f : Fate => !f.heard) R [] (fun x hx => by simp [hR x hx])
    simpa using this
  rw [this]; rfl

theorem lostInside_lost (fs : List Fate) (x : Fate) (hx : x.heard = false) : lostInside (fs ++ [x]) = lostInside fs := by
  by_cases h : ∀ y ∈ fs, y.heard = false
  · rw [lostInside_none fs h, lostInside_none _ (by intro y hy; rcases List.mem_append.1 hy with hy | hy; exact h y hy; rw [List.mem_singleton.1 hy]; exact hx)]
  · unfold lostInside
    have : (fs ++ [x]).dropWhile (fun f => !f.heard) = fs.dropWhile (fun f => !f.heard) ++ [x] := by
      push Not at h
      obtain ⟨y, hy, hyh⟩ := h
      obtain ⟨P, R, rfl⟩ := List.append_of_mem hy
      have hyh : y.heard = true := by simpa using hyh
      rw [List.append_assoc, List.cons_append, dropWhile_mid _ P _ y (by simp [hyh]), dropWhile_mid _ P _ y (by simp [hyh]), List.append_assoc, List.cons_append]
    rw [this, List.reverse_append, List.reverse_singleton, List.singleton_append, List.dropWhile_cons]
    simp [hx]

/-- One more is received: what was lost since the last one before counts. -/
theorem lostInside_next (fs : List Fate) (x f : Fate) (m : Nat) (hx : x.heard = true) (hm : fs[m]? = some f) (hf : f.heard = true)
    (hR : ∀ j g, m < j → fs[j]? = some g → g = .lost) : lostInside (fs ++ [x]) = lostInside fs + (fs.length - m - 1) := by
  have hlt := (List.getElem?_eq_some_iff.1 hm).1
  have he : fs = fs.take m ++ f :: fs.drop (m + 1) := by
    have e1 := (List.take_append_drop m fs).symm
    rw [List.drop_eq_getElem_cons hlt, (List.getElem?_eq_some_iff.1 hm).2] at e1
    exact e1
  have hl : ∀ y ∈ fs.drop (m + 1), y.heard = false := by
    intro y hy
    obtain ⟨j, hj, e⟩ := List.getElem_of_mem hy
    have : fs[m + 1 + j]? = some y := by rw [← List.getElem?_drop, List.getElem?_eq_getElem hj, e]
    rw [hR (m + 1 + j) y (by omega) this]; rfl
  have e1 := lostInside_mid (fs.take m) (fs.drop (m + 1)) f hf hl
  rw [← he] at e1
  rw [e1, lostInside_mid fs [] x hx (by simp)]
  conv => lhs; rw [he]
  rw [dropWhile_mid _ _ _ f (by simp [hf]), List.countP_append, List.countP_cons]
  have : (fs.drop (m + 1)).countP (fun f => !f.heard) = (fs.drop (m + 1)).length := by
    rw [List.countP_eq_length]
    intro y hy
    simp [hl y hy]
  rw [this, List.length_drop]
  simp only [hf, Bool.not_true, Bool.false_eq_true, ↓reduceIte]
  omega

theorem crossed_iff (fs : List Fate) (n : Nat) : crossed fs n = true ↔ (∃ i f, i < n ∧ fs[i]? = some f ∧ f.heard = true) ∧ ∃ j f, n ≤ j ∧ fs[j]? = some f ∧ f.heard = true := by
  unfold crossed
  rw [Bool.and_eq_true, List.any_eq_true, List.any_eq_true]
  refine and_congr ⟨?_, ?_⟩ ⟨?_, ?_⟩
  · rintro ⟨f, hf, hh⟩
    obtain ⟨i, hi, e⟩ := List.getElem_of_mem hf
    rw [List.length_take] at hi
    exact ⟨i, f, by omega, by rw [← e, List.getElem_take]; exact List.getElem?_eq_getElem _, hh⟩
  · rintro ⟨i, f, hi, hf, hh⟩
    exact ⟨f, List.mem_of_getElem? (i := i) (by rw [List.getElem?_take, if_pos hi]; exact hf), hh⟩
  · rintro ⟨f, hf, hh⟩
    obtain ⟨i, hi, e⟩ := List.getElem_of_mem hf
    exact ⟨n + i, f, by omega, by rw [← List.getElem?_drop, List.getElem?_eq_getElem hi, e], hh⟩
  · rintro ⟨j, f, hj, hf, hh⟩
    exact ⟨f, List.mem_of_getElem? (i := j - n) (by rw [List.getElem?_drop, show n + (j - n) = j by omega]; exact hf), hh⟩

theorem seam_iff (fs : List Fate) (n : Nat) : seam fs n = true ↔ (∃ f, fs[n - 1]? = some f ∧ f.heard = true) ∧ ∃ f, fs[n]? = some f ∧ f.heard = true := by
  unfold seam
  rw [Bool.and_eq_true, Option.any_eq_true, Option.any_eq_true]

theorem getElem?_heard_lost (fs : List Fate) (x : Fate) (hx : x.heard = false) (i : Nat) (f : Fate) (hf : f.heard = true) : (fs ++ [x])[i]? = some f ↔ fs[i]? = some f := by
  by_cases hi : i < fs.length
  · rw [List.getElem?_append_left hi]
  · rw [List.getElem?_eq_none (show fs.length ≤ i by omega), List.getElem?_append_right (by omega)]
    constructor
    · intro h
      have := List.mem_of_getElem? h
      rw [List.mem_singleton] at this
      rw [this, hx] at hf; cases hf
    · intro h; cases h

theorem crossed_lost (fs : List Fate) (x : Fate) (hx : x.heard = false) (n : Nat) : crossed (fs ++ [x]) n = crossed fs n := by
  rw [Bool.eq_iff_iff, crossed_iff, crossed_iff]
  refine and_congr (exists_congr fun i => exists_congr fun f => ?_) (exists_congr fun i => exists_congr fun f => ?_)
  · exact and_congr_right fun _ => and_congr_left fun h => getElem?_heard_lost fs x hx i f h
  · exact and_congr_right fun _ => and_congr_left fun h => getElem?_heard_lost fs x hx i f h

theorem seam_lost (fs : List Fate) (x : Fate) (hx : x.heard = false) (n : Nat) : seam (fs ++ [x]) n = seam fs n := by
  rw [Bool.eq_iff_iff, seam_iff, seam_iff]
  refine and_congr (exists_congr fun f => ?_) (exists_congr fun f => ?_)
  · exact and_congr_left fun h => getElem?_heard_lost fs x hx _ f h
  · exact and_congr_left fun h => getElem?_heard_lost fs x hx _ f h

/-- What the receiver's arithmetic makes of a rollover: one gap too few, modulo 2^32. -/
def short (fs : List Fate) (n : Nat) : Nat := if crossed fs n then 1 else 0
def over (fs : List Fate) (n : Nat) : Nat := if seam fs n then 2 ^ 32 else 0

theorem short_none (R : List Fate) (h : Fate) (hR : ∀ x ∈ R, x.heard = false) (n : Nat) :
    short R n = 0 ∧ over R n = 0 ∧ (0 < n → short (R ++ [h]) n = 0 ∧ over (R ++ [h]) n = 0) := by
  have hno : ∀ (i : Nat) (f : Fate), R[i]? = some f → f.heard = true → False := fun i f h1 h2 => by
    rw [hR f (List.mem_of_getElem? h1)] at h2; cases h2
  have hlast : ∀ (i : Nat) (f : Fate), (R ++ [h])[i]? = some f → f.heard = true → i = R.length := by
    intro i f h1 h2
    by_cases hi : i < R.length
    · rw [List.getElem?_append_left hi] at h1
      exact absurd h2 (fun h2 => hno i f h1 h2)
    · have := (List.getElem?_eq_some_iff.1 h1).1
      rw [List.length_append, List.length_singleton] at this
      omega
  unfold short over
  refine ⟨?_, ?_, fun hn => ⟨?_, ?_⟩⟩
  · rw [if_neg]; rw [crossed_iff]; rintro ⟨⟨i, f, _, h1, h2⟩, _⟩; exact hno i f h1 h2
  · rw [if_neg]; rw [seam_iff]; rintro ⟨⟨f, h1, h2⟩, _⟩; exact hno _ f h1 h2
  · rw [if_neg]; rw [crossed_iff]; rintro ⟨⟨i, f, a0, h1, h2⟩, j, g, a1, h3, h4⟩
    have := hlast i f h1 h2; have := hlast j g h3 h4; omega
  · rw [if_neg]; rw [seam_iff]; rintro ⟨⟨f, h1, h2⟩, g, h3, h4⟩
    have := hlast _ f h1 h2; have := hlast _ g h3 h4; omega

/-- One more is received, the last before it being number `m`. -/
theorem short_next (fs : List Fate) (x f : Fate) (m n : Nat) (hn : 0 < n) (hx : x.heard = true) (hm : fs[m]? = some f) (hf : f.heard = true)
    (hR : ∀ j g, m < j → fs[j]? = some g → g = .lost) :
    (m < n ∧ n ≤ fs.length → short fs n = 0 ∧ over fs n = 0 ∧ short (fs ++ [x]) n = 1 ∧ over (fs ++ [x]) n = if m + 1 = fs.length then 2 ^ 32 else 0) ∧
    (¬ (m < n ∧ n ≤ fs.length) → short (fs ++ [x]) n = short fs n ∧ over (fs ++ [x]) n = over fs n) := by
  have hlt := (List.getElem?_eq_some_iff.1 hm).1
  have hle : ∀ (i : Nat) (g : Fate), fs[i]? = some g → g.heard = true → i ≤ m := by
    intro i g h1 h2
    by_contra hi
    rw [hR i g (by omega) h1] at h2; cases h2
  have hat : ∀ (i : Nat) (g : Fate), (fs ++ [x])[i]? = some g → g.heard = true → (fs[i]? = some g ∧ i ≤ m) ∨ i = fs.length := by
    intro i g h1 h2
    by_cases hi : i < fs.length
    · rw [List.getElem?_append_left hi] at h1
      exact .inl ⟨h1, hle i g h1 h2⟩
    · have := (List.getElem?_eq_some_iff.1 h1).1
      rw [List.length_append, List.length_singleton] at this
      exact .inr (by omega)
  have hold : ∀ (i : Nat) (g : Fate), fs[i]? = some g → (fs ++ [x])[i]? = some g := by
    intro i g h
    rw [List.getElem?_append_left (List.getElem?_eq_some_iff.1 h).1]; exact h
  have hnew : (fs ++ [x])[fs.length]? = some x := by simp
  unfold short over
  constructor
  · rintro ⟨h1, h2⟩
    refine ⟨?_, ?_, ?_, ?_⟩
    · rw [if_neg]; rw [crossed_iff]; rintro ⟨_, j, g, a1, a2, a3⟩; have := hle j g a2 a3; omega
    · rw [if_neg]; rw [seam_iff]; rintro ⟨_, g, a2, a3⟩; have := hle _ g a2 a3; omega
    · rw [if_pos]; rw [crossed_iff]; exact ⟨⟨m, f, h1, hold m f hm, hf⟩, fs.length, x, h2, hnew, hx⟩
    · by_cases hc : m + 1 = fs.length
      · rw [if_pos hc, if_pos]
        rw [seam_iff]
        have : n = fs.length := by omega
        exact ⟨⟨f, by rw [this, ← hc]; exact hold m f hm, hf⟩, x, by rw [this]; exact hnew, hx⟩
      · rw [if_neg hc, if_neg]
        rw [seam_iff]
        rintro ⟨⟨f1, a1, a2⟩, f2, a3, a4⟩
        rcases hat _ f1 a1 a2 with h | h <;> rcases hat _ f2 a3 a4 with h' | h' <;> omega
  · intro hc
    have e1 : crossed (fs ++ [x]) n = crossed fs n := by
      rw [Bool.eq_iff_iff, crossed_iff, crossed_iff]
      constructor
      · rintro ⟨⟨i, g, a0, a1, a2⟩, j, g', b0, b1, b2⟩
        have hi : fs[i]? = some g ∧ i ≤ m := by
          rcases hat i g a1 a2 with h | h
          · exact h
          · rcases hat j g' b1 b2 with h' | h' <;> omega
        refine ⟨⟨i, g, a0, hi.1, a2⟩, ?_⟩
        rcases hat j g' b1 b2 with h | h
        · exact ⟨j, g', b0, h.1, b2⟩
        · exact ⟨m, f, by omega, hm, hf⟩
      · rintro ⟨⟨i, g, a0, a1, a2⟩, j, g', b0, b1, b2⟩
        exact ⟨⟨i, g, a0, hold i g a1, a2⟩, j, g', b0, hold j g' b1, b2⟩
    have e2 : seam (fs ++ [x]) n = seam fs n := by
      rw [Bool.eq_iff_iff, seam_iff, seam_iff]
      constructor
      · rintro ⟨⟨g, a1, a2⟩, g', b1, b2⟩
        rcases hat _ g a1 a2 with h | h
        · rcases hat _ g' b1 b2 with h' | h'
          · exact ⟨⟨g, h.1, a2⟩, g', h'.1, b2⟩
          · exfalso
            have h0 := h.2
            by_cases hmn : m < n
            · exact hc ⟨hmn, by omega⟩
            · omega
        · rcases hat _ g' b1 b2 with h' | h' <;> omega
      · rintro ⟨⟨g, a1, a2⟩, g', b1, b2⟩
        exact ⟨⟨g, hold _ g a1, a2⟩, g', hold _ g' b1, b2⟩
    rw [e1, e2]; exact ⟨rfl, rfl⟩

/-- If the receiver remembers no frame of the channel, none was heard. -/
theorem none_heard (t : Transmitter) (packets : BitVec 6 → List (List U8)) (v : BitVec 6) (L : List Slot)
    (hh : ∀ x ∈ L, ∀ rx ∈ (t.slotSent packets x).rx, VCDUHeader.decode rx = some (t.header x.1.1 x.1.2))
    (hp : lastOfChannel ((L.flatMap fun x => (t.slotSent packets x).rx).map blk) (v.setWidth 16) = none) : ∀ f ∈ chan v L, f.heard = false := by
  intro f hf
  unfold chan at hf
  obtain ⟨x, hx, rfl⟩ := List.mem_map.1 hf
  obtain ⟨hx, hv⟩ := List.mem_filter.1 hx
  have hv : x.1.1 = v := by simpa using hv
  by_contra hheard
  have hheard : x.2.heard = true := by simpa using hheard
  have : ∃ rx, rx ∈ (t.slotSent packets x).rx := by
    rw [slotSent_rx]
    cases hf : x.2 with
    | lost => rw [hf] at hheard; simp [Fate.heard] at hheard
    | received y => exact ⟨t.unrand (y.drop 4), by simp [Fate.bytes]⟩
    | spoiled y => exact ⟨t.unrand (y.drop 4), by simp [Fate.bytes]⟩
  obtain ⟨rx, hrx⟩ := this
  unfold lastOfChannel at hp
  rw [List.getLast?_eq_none_iff, List.filter_eq_nil_iff] at hp
  refine hp (t.header x.1.1 x.1.2) ?_ (by rw [← hv]; show (x.1.1.setWidth 16 == x.1.1.setWidth 16) = true; simp)
  rw [List.mem_filterMap]
  exact ⟨blk rx, List.mem_map.2 ⟨rx, List.mem_flatMap.2 ⟨x, hx, hrx⟩, rfl⟩, hh x hx rx hrx⟩

end Spec.Transmitter

open Spec.Transmitter

/-- Without correction: a block as it was sent is accepted, and every block that is not one of code words is marked and left as it is. -/
theorem C44_detects (k : Codec) (code : List U8 → Prop) (hk : Bounded k code) (o : RS.Opts) (f : Frame)
    (hv : f.header.vcid ≠ 63) (hI : 0 < o.interleave.toNat) (hvf : o.virtualFill ≤ 223 * o.interleave.toNat)
    (hlen : f.data.length + o.virtualFill = 255 * o.interleave.toNat) (hcorr : o.correct = false) :
    ((∀ i, i < o.interleave.toNat → code (codeword o.interleave.toNat (List.replicate o.virtualFill 0#8 ++ f.data) i)) →
      RS.job k o f = .ret ⟨f.header, f.missing, some .ok, f.data.take (f.data.length - 32 * o.interleave.toNat)⟩) ∧
    ((∃ i, i < o.interleave.toNat ∧ ¬ code (codeword o.interleave.toNat (List.replicate o.virtualFill 0#8 ++ f.data) i)) →
      RS.job k o f = .ret ⟨f.header, f.missing, some .notCorrected, f.data⟩) := by
  constructor
  · intro hc
    have e := C41_partial k code hk o.config f.data rfl hI hvf rfl hlen hc
    obtain ⟨⟨h', m', i', d'⟩, e1, e2, e3, e4, e5, _⟩ := (C44_frame k o f hv).1 _ _ e
    rw [e1]
    have e5 := e5 (.inl rfl)
    simp only at e2 e3 e4 e5
    rw [e2, e3, e4, e5]; rfl
  · intro hc
    have e := (C40_partial k code hk o.config f.data rfl hI hlen).2 hcorr hc
    obtain ⟨⟨h', m', i', d'⟩, e1, e2, e3, e4, _, e6⟩ := (C44_frame k o f hv).1 _ _ e
    rw [e1]
    have e6 := e6 (by decide) (by decide)
    simp only at e2 e3 e4 e6
    rw [e2, e3, e4, e6]

/-- A damaged block within reach of correction is not one of code words. -/
theorem damaged_not_code {k : Codec} {code : List U8 → Prop} (hk : Bounded k code) {I vf : Nat} {tx rx : List U8} (hI : 0 < I) (hlen : tx.length + vf = 255 * I) (hrx : rx.length = tx.length)
    (hcode : ∀ i, i < I → code (codeword I (List.replicate vf 0#8 ++ tx) i))
    (hd : ∀ i, i < I → dist (codeword I (List.replicate vf 0#8 ++ rx) i) (codeword I (List.replicate vf 0#8 ++ tx) i) ≤ 16) (hne : rx ≠ tx) :
    ∃ i, i < I ∧ ¬ code (codeword I (List.replicate vf 0#8 ++ rx) i) := by
  by_contra hcon
  push Not at hcon
  refine hne (List.append_cancel_left (RS.eq_of_codewords hI (a := List.replicate vf 0#8 ++ rx) (b := List.replicate vf 0#8 ++ tx) (by simp; omega) (by simp; omega) fun i hi => ?_))
  by_contra hn
  obtain ⟨n, hn0, e⟩ := hk.corrects _ _ (codeword_length _ _ _) (hcode i hi) hn (hd i hi)
  rw [hk.clean _ (hcon i hi)] at e
  cases e

/-- The frame the Reed–Solomon stage makes of a data unit. -/
theorem shows_job {k : Codec} (hk : Bounded k ccsdsCode) {t : Transmitter} (ht : t.Valid) {packets : BitVec 6 → List (List U8)} {o : RS.Opts}
    (hI : o.interleave.toNat = t.depth) (hvf : o.virtualFill = t.fill) {x : Slot} {rx : List U8} {f g : Frame}
    (hroom : x.1.1 ≠ 63 → (x.1.2 + 1) * t.zoneSize ≤ (packets x.1.1).flatten.length)
    (hb : t.Befalls (t.cadu (packets x.1.1) x.1.1 x.1.2) x.2) (hx : x.2.bytes = [rx]) (hhead : f.header = t.header x.1.1 x.1.2) (hdata : f.data = t.unrand (rx.drop 4))
    (hint : f.integrity = none) (hj : RS.job k o f = .ret g) : t.Shows packets o.correct x g := by
  have hsame := job_header hj
  have hctr : g.header.counter.toNat = t.counter x.1.1 x.1.2 := by
    rw [hsame.1, hhead]
    show (BitVec.ofNat 32 ((t.first x.1.1 + x.1.2) % 2 ^ 24)).toNat = (t.first x.1.1 + x.1.2) % 2 ^ 24
    rw [BitVec.toNat_ofNat]
    omega
  have hdep := ht.depth.1
  have hff := fill_frame t ht
  have hbl := block_length t ht (packets x.1.1) x.1.1 x.1.2 hroom
  have hbf : t.blockSize = t.frameSize + 32 * t.depth := rfl
  have hvc : f.header.vcid = 63 ↔ x.1.1 = 63 := by
    rw [hhead]
    exact ⟨fun e => wide_inj (w := 63#6) e, fun e => by show x.1.1.setWidth 16 = 63; rw [e]; decide⟩
  by_cases h63 : x.1.1 = 63
  · rw [C44_fill k o f (hvc.2 h63)] at hj
    cases hj
    refine ⟨by rw [hhead]; rfl, by rw [hhead]; rfl, hctr, by unfold verdict; rw [if_pos h63]; exact hint, fun h => absurd h63 h, fun _ y hy => ?_⟩
    rw [hx, List.mem_singleton] at hy
    rw [hy, hdata]; rfl
  · have hv63 : f.header.vcid ≠ 63 := fun e => h63 (hvc.1 e)
    have hI0 : 0 < o.interleave.toNat := by omega
    have hvf0 : o.virtualFill ≤ 223 * o.interleave.toNat := by rw [hI, hvf]; omega
    have main : g.integrity = t.verdict packets o.correct x ∧ (t.usable packets o.correct x = true → g.data = t.frame (packets x.1.1) x.1.1 x.1.2) ∧
        (t.usable packets o.correct x = false → g.data = f.data) := by
      cases hf : x.2 with
      | lost => rw [hf] at hx; simp [Fate.bytes] at hx
      | received y =>
        have hyx : rx = y := by rw [hf] at hx; simpa [Fate.bytes] using hx.symm
        subst hyx
        rw [hf] at hb
        obtain ⟨hc, hmk, hlen⟩ := noisy_correctable t ht o hI hvf (packets x.1.1) x.1.1 x.1.2 hroom rx hb
        have hdec := decode_block t (packets x.1.1) x.1.1 x.1.2
        have h63' : (t.header x.1.1 x.1.2).vcid ≠ 63 := by rw [← hhead]; exact hv63
        have hcode := hc.code _ hdec h63'
        have herr := hc.errors _ hdec h63'
        have htx : (t.block (packets x.1.1) x.1.1 x.1.2).take ((t.block (packets x.1.1) x.1.1 x.1.2).length - 32 * o.interleave.toNat) = t.frame (packets x.1.1) x.1.1 x.1.2 := by
          rw [hbl, hI, show t.blockSize - 32 * t.depth = t.frameSize by omega]
          unfold block
          rw [List.take_left' (frame_length t ht _ _ _ hroom)]
        have hsame : f.data = t.block (packets x.1.1) x.1.1 x.1.2 ↔ rx = t.cadu (packets x.1.1) x.1.1 x.1.2 := by
          rw [hdata, cadu_eq]
          constructor
          · intro e
            rw [← e, unrand_unrand]; exact hmk
          · intro e
            rw [e, List.drop_left' (by rfl), unrand_unrand]
        have hv : t.verdict packets o.correct x = some (if rx = t.cadu (packets x.1.1) x.1.1 x.1.2 then .ok else if o.correct then .corrected else .notCorrected) := by
          unfold verdict; rw [if_neg h63, hf]
        have hu : t.usable packets o.correct x = (o.correct || decide (rx = t.cadu (packets x.1.1) x.1.1 x.1.2)) := by unfold usable; rw [hf]
        rw [hv, hu]
        cases hcorr : o.correct with
        | true =>
          have := C44_corrects k ccsdsCode hk o f (t.block (packets x.1.1) x.1.1 x.1.2) hv63 hI0 hvf0 hc.length (by rw [hdata]; exact hc.same)
            hcode (by rw [hdata]; exact herr) hcorr
          rw [this, htx] at hj
          rw [← Outcome.ret.inj hj]
          refine ⟨?_, fun _ => rfl, fun h => by simp at h⟩
          show some (if f.data = _ then Integrity.ok else .corrected) = _
          simp only [hsame, ↓reduceIte]
        | false =>
          have hfl : f.data.length = (t.block (packets x.1.1) x.1.1 x.1.2).length := by rw [hdata]; exact hc.same
          obtain ⟨g1, g2⟩ := C44_detects k ccsdsCode hk o f hv63 hI0 hvf0 (by rw [hfl]; exact hc.length) hcorr
          by_cases he : rx = t.cadu (packets x.1.1) x.1.1 x.1.2
          · rw [g1 (by rw [hsame.2 he]; exact hcode), hsame.2 he, htx] at hj
            rw [← Outcome.ret.inj hj]
            exact ⟨by rw [if_pos he], fun _ => rfl, fun h => by simp [he] at h⟩
          · rw [g2 (damaged_not_code hk hI0 hc.length hfl hcode (by rw [hdata]; exact herr) fun e => he (hsame.1 e))] at hj
            rw [← Outcome.ret.inj hj]
            exact ⟨by rw [if_neg he]; rfl, fun h => by simp [he] at h, fun _ => rfl⟩
      | spoiled y =>
        have hyx : rx = y := by rw [hf] at hx; simpa [Fate.bytes] using hx.symm
        subst hyx
        rw [hf] at hb
        obtain ⟨_, _, hlen⟩ := start_intact t ht _ _ _ hroom rx hb.length hb.start
        have hfl : f.data.length + o.config.virtualFill = 255 * o.config.interleave.toNat := by
          show f.data.length + o.virtualFill = 255 * o.interleave.toNat
          rw [hdata, unrand_length, hlen, hvf, hI]; omega
        obtain ⟨i, hi, hw⟩ := hb.beyond
        have hfar : ∀ w, ccsdsCode w → 16 < dist (codeword o.interleave.toNat (List.replicate o.virtualFill 0#8 ++ f.data) i) w := by
          intro w hc
          rw [hI, hvf, hdata]
          exact hw w hc
        have hv : t.verdict packets o.correct x = some (if o.correct then .uncorrectable else .notCorrected) := by
          unfold verdict; rw [if_neg h63, hf]
        have hu : t.usable packets o.correct x = false := by unfold usable; rw [hf]
        rw [hv, hu]
        cases hcorr : o.correct with
        | true =>
          have hbad := (C40_partial k ccsdsCode hk o.config f.data rfl hI0 hfl).1 hcorr ⟨i, by show i < o.interleave.toNat; rw [hI]; exact hi, hfar⟩
          obtain ⟨f', e1, _, _, e4, _, e6⟩ := (C44_frame k o f hv63).1 _ _ hbad
          rw [hj] at e1
          rw [Outcome.ret.inj e1]
          exact ⟨e4, fun h => by simp at h, fun _ => e6 (by decide) (by decide)⟩
        | false =>
          have g2 := (C44_detects k ccsdsCode hk o f hv63 hI0 hvf0 hfl hcorr).2 ⟨i, by rw [hI]; exact hi, fun hc => by
            have := hfar _ hc
            rw [dist_self] at this
            omega⟩
          rw [g2] at hj
          rw [← Outcome.ret.inj hj]
          exact ⟨rfl, fun h => by simp at h, fun _ => rfl⟩
    refine ⟨by rw [hsame.1, hhead]; rfl, by rw [hsame.1, hhead]; rfl, hctr, main.1, fun _ => main.2.1, fun h y hy => ?_⟩
    rw [hx, List.mem_singleton] at hy
    rw [main.2.2 (h h63), hy, hdata]; rfl

/-- The sum of the gaps reported on a channel. -/
def gapsOn (gs : List Frame) (v : U16) : Nat := ((ofVcid gs v).map fun f => f.missing.toNat).sum

theorem gapsOn_cons (g : Frame) (gs : List Frame) (v : U16) : gapsOn (g :: gs) v = (if g.header.vcid = v then g.missing.toNat else 0) + gapsOn gs v := by
  unfold gapsOn ofVcid
  rw [List.filter_cons]
  by_cases h : g.header.vcid = v <;> simp [h]

theorem decodes_shows {b : Build} {k : Codec} (hk : Bounded k ccsdsCode) {t : Transmitter} (ht : t.Valid) {packets : BitVec 6 → List (List U8)} {o : RS.Opts}
    (hI : o.interleave.toNat = t.depth) (hvf : o.virtualFill = t.fill) (L : List Slot) (hnum : Numbered L)
    (hroom : ∀ x ∈ L, x.1.1 ≠ 63 → (x.1.2 + 1) * t.zoneSize ≤ (packets x.1.1).flatten.length)
    (hb : ∀ x ∈ L, t.Befalls (t.cadu (packets x.1.1) x.1.1 x.1.2) x.2)
    (hhead : ∀ x ∈ L, ∀ rx ∈ (t.slotSent packets x).rx, VCDUHeader.decode rx = some (t.header x.1.1 x.1.2)) :
    ∀ (B A : List Slot) (gs : List Frame), L = A ++ B → Decodes b k o (A.flatMap fun x => (t.slotSent packets x).rx) (B.flatMap fun x => (t.slotSent packets x).rx) gs →
      List.Forall₂ (t.Shows packets o.correct) (B.filter fun x => x.2.heard) gs ∧ gapsOn gs 63 = 0 ∧
      ∀ v : BitVec 6, v ≠ 63 → (chan v L).length ≤ 2 ^ 24 → (b.overflowChecks = false ∨ t.counter v 0 + (chan v L).length ≤ 2 ^ 24) →
        lostInside (chan v L) + over (chan v L) (t.rollAt v) + short (chan v A) (t.rollAt v) =
          lostInside (chan v A) + over (chan v A) (t.rollAt v) + short (chan v L) (t.rollAt v) + gapsOn gs (v.setWidth 16) := by
  intro B
  induction B with
  | nil =>
    intro A gs e hd
    rw [List.append_nil] at e
    cases gs with
    | nil => exact ⟨.nil, rfl, fun v _ _ _ => by rw [e]; show _ = _ + 0; omega⟩
    | cons g gs => simp [Decodes] at hd
  | cons x B ih =>
    intro A gs e hd
    have hx : x ∈ L := by rw [e]; simp
    have e' : L = (A ++ [x]) ++ B := by rw [e]; simp
    have hcA : ∀ v, chan v (A ++ [x]) = chan v A ++ if x.1.1 = v then [x.2] else [] := fun v => by rw [chan_append, chan_singleton]
    rw [List.flatMap_cons] at hd
    cases hh : x.2.heard with
    | false =>
      have hlost : x.2 = .lost := by
        cases hf : x.2 with
        | lost => rfl
        | received y => rw [hf] at hh; simp [Fate.heard] at hh
        | spoiled y => rw [hf] at hh; simp [Fate.heard] at hh
      have hrx : (t.slotSent packets x).rx = [] := by rw [slotSent_rx, hlost]; rfl
      rw [hrx, List.nil_append] at hd
      obtain ⟨h1, h2, h3⟩ := ih (A ++ [x]) gs e' (by rw [List.flatMap_append, List.flatMap_cons, hrx]; simpa using hd)
      refine ⟨by rw [List.filter_cons, hh]; exact h1, h2, fun v hv hc hr => ?_⟩
      have h3 := h3 v hv hc hr
      rw [hcA] at h3
      by_cases hv : x.1.1 = v
      · rw [if_pos hv, lostInside_lost _ _ hh] at h3
        unfold short over at h3 ⊢
        rw [crossed_lost _ _ hh, seam_lost _ _ hh] at h3
        exact h3
      · rw [if_neg hv, List.append_nil] at h3; exact h3
    | true =>
      obtain ⟨rx, hrx⟩ : ∃ rx, x.2.bytes = [rx] := by
        cases hf : x.2 with
        | lost => rw [hf] at hh; simp [Fate.heard] at hh
        | received y => exact ⟨y, rfl⟩
        | spoiled y => exact ⟨y, rfl⟩
      have hrx' : (t.slotSent packets x).rx = [t.unrand (rx.drop 4)] := by rw [slotSent_rx, hrx]; rfl
      rw [hrx', List.singleton_append] at hd
      cases gs with
      | nil => simp [Decodes] at hd
      | cons g gs =>
        obtain ⟨⟨f, ⟨f1, f2, f3, f4⟩, hj⟩, hd⟩ := hd
        have hdec := hhead x hx (t.unrand (rx.drop 4)) (by rw [hrx']; simp)
        have f1 : VCDUHeader.decode (t.unrand (rx.drop 4)) = some f.header := f1
        rw [hdec] at f1
        have hfh := (Option.some.inj f1).symm
        have hshow := shows_job hk ht hI hvf (hroom x hx) (hb x hx) hrx hfh f2 f3 hj
        have hmiss := (job_header hj).2
        have hgv : g.header.vcid = x.1.1.setWidth 16 := hshow.vcid
        obtain ⟨h1, h2, h3⟩ := ih (A ++ [x]) gs e' (by rw [List.flatMap_append, List.flatMap_cons, hrx']; simpa using hd)
        have hfv : f.header.vcid = x.1.1.setWidth 16 := by rw [hfh]; rfl
        rw [hfv] at f4
        refine ⟨by rw [List.filter_cons, hh]; exact .cons hshow h1, ?_, fun v hv hc hr => ?_⟩
        · rw [gapsOn_cons, h2, hgv]
          split
          · rename_i h63
            rw [h63] at f4
            rw [hmiss]
            simp only [↓reduceIte] at f4
            split at f4 <;> simp [f4]
          · rfl
        · have h3 := h3 v hv hc hr
          rw [hcA] at h3
          rw [gapsOn_cons, hgv]
          by_cases hxv : x.1.1 = v
          · rw [if_pos hxv] at h3
            rw [if_pos (by rw [hxv])]
            rw [hxv] at f4
            have hw : v.setWidth 16 ≠ (63 : U16) := fun e => hv (wide_inj (w := 63#6) e)
            have hnx := hnum A x B e
            rw [hxv] at hnx
            have hlt : x.1.2 < (chan v L).length := by
              rw [e', chan_append, hcA, if_pos hxv, List.length_append, List.length_append, hnx]; simp; omega
            have hroll : 0 < t.rollAt v := by unfold rollAt counter; omega
            cases hp : lastOfChannel ((A.flatMap fun x => (t.slotSent packets x).rx).map blk) (v.setWidth 16) with
            | none =>
              rw [hp] at f4
              have f4 : f.missing = 0 := f4
              have hn := none_heard t packets v A (fun y hy => hhead y (by rw [e]; exact List.mem_append_left _ hy)) hp
              obtain ⟨s1, s2, s3⟩ := short_none (chan v A) x.2 hn (t.rollAt v)
              obtain ⟨s3, s4⟩ := s3 hroll
              rw [lostInside_first _ _ hh hn, s3, s4] at h3
              rw [lostInside_none _ hn, s1, s2, hmiss, f4, h3]; simp
            | some p =>
              rw [hp] at f4
              simp only [hw, ↓reduceIte] at f4
              obtain ⟨m, f', m1, m2, m3, m4⟩ := last_heard t packets v A (by rw [e] at hnum; exact hnum.prefix)
                (fun y hy => hhead y (by rw [e]; exact List.mem_append_left _ hy)) p hp
              have hmA := (List.getElem?_eq_some_iff.1 m2).1
              rw [lostInside_next _ _ f' m hh m2 m3 m4] at h3
              have hctr : ∀ n, (t.header v n).counter.toNat = (t.first v + n) % 2 ^ 24 := by
                intro n
                show (BitVec.ofNat 32 ((t.first v + n) % 2 ^ 24)).toNat = _
                rw [BitVec.toNat_ofNat]
                omega
              have c1 := hctr m
              have c2 := hctr x.1.2
              rw [hfh, hxv, m1] at f4
              obtain ⟨n1, n2⟩ := short_next (chan v A) x.2 f' m (t.rollAt v) hroll hh m2 m3 m4
              obtain ⟨q1, q2, q3, q4⟩ := C34_behaviour b (t.header v x.1.2).counter (t.header v m).counter (by omega) (by omega)
              by_cases hx : m < t.rollAt v ∧ t.rollAt v ≤ (chan v A).length
              · obtain ⟨k1, k2, k3, k4⟩ := n1 hx
                rw [k3, k4] at h3
                rw [k1, k2, hmiss]
                unfold rollAt counter at hx
                have hbf : b.overflowChecks = false := by
                  rcases hr with h | h
                  · exact h
                  · unfold counter at h; omega
                by_cases hmax : (t.header v m).counter.toNat = 2 ^ 24 - 1
                · have q4 := q4 (by omega) hmax
                  rw [hbf] at q4
                  simp only [Bool.false_eq_true, ↓reduceIte] at q4
                  rw [q4] at f4
                  have f4 : (t.header v x.1.2).counter - 1 = f.missing := by simpa using f4
                  have f5 : f.missing.toNat = (2 ^ 32 - 1 + (t.header v x.1.2).counter.toNat) % 2 ^ 32 := by
                    rw [← f4, BitVec.toNat_sub]; rfl
                  rw [f5, c2]
                  split at h3 <;> omega
                · obtain ⟨q, e1, e2⟩ := q3 (by omega) (by omega)
                  rw [e1] at f4
                  have f4 : q = f.missing := by simpa using f4
                  rw [← f4]
                  rw [c1, c2] at e2
                  unfold gap at e2
                  split at h3 <;> omega
              · obtain ⟨k1, k2⟩ := n2 hx
                rw [k1, k2] at h3
                clear q2 q3 q4 n1 n2 k1 k2
                have hlt' : (t.header v m).counter.toNat < (t.header v x.1.2).counter.toNat := by
                  clear q1
                  unfold rollAt counter at hx
                  omega
                obtain ⟨q, e1, e2⟩ := q1 hlt'
                clear q1
                rw [e1] at f4
                have f4 : q = f.missing := by simpa using f4
                rw [hmiss, ← f4]
                rw [c1, c2] at e2
                unfold rollAt counter at hx
                unfold gap at e2
                omega
          · rw [if_neg hxv, List.append_nil] at h3
            rw [if_neg (fun e => hxv (wide_inj e)), Nat.zero_add]
            exact h3

/-- The pipeline on received blocks of the right length, with or without correction: which blocks are handed out, and as what. -/
theorem stage_decodes (b : Build) (k : Codec) (code : List U8 → Prop) (hk : Bounded k code) (derand : Bool) (o : RS.Opts)
    (p : RsStage.Params) (hI : 0 < o.interleave.toNat) (hvf : o.virtualFill ≤ 223 * o.interleave.toNat)
    (r : Reader) (S : List U8) (len : Nat) (units : List (List Bool × List U8)) (post : List Bool)
    (hr : Smooth r S) (hS : CarriesGaps derand S len units post) (hlen : len + o.virtualFill = 255 * o.interleave.toNat) :
    Runs b k ⟨derand, some (o, p), len⟩ r RsStage.State.init ∧
    ∀ s, Runs b k ⟨derand, some (o, p), len⟩ r s →
      (1 ≤ p.workers → s.cons ≠ .gone → ∃ t, Runs b k ⟨derand, some (o, p), len⟩ r t ∧ t.cons = .ended) ∧
      (s.cons = .ended → Heard b (units.map (·.2)) s.got.length ∧ Decodes b k o [] ((units.map (·.2)).take s.got.length) s.got) := by
  obtain ⟨frames, ended, h1, h2, h3, h4, h5⟩ := C52_until b derand r S len units post hr hS
  generalize hU : units.map (·.2) = U at h2 h3 h4 h5
  have hfle : frames.length ≤ U.length := by
    have := congrArg List.length h2
    simp only [List.length_map, List.length_take] at this
    omega
  have hstop : Heard b U frames.length := by
    constructor
    · cases ended with
      | true =>
        rcases h4 rfl with h | ⟨d, hd, hn⟩
        · exact .inl h
        · exact .inr ⟨d, hd, .inl hn⟩
      | false =>
        obtain ⟨hov, d, h, q, e1, e2, e3, e4, e5, e6⟩ := h5 rfl
        exact .inr ⟨d, e1, .inr ⟨hov, h, q, e2, e6, e3, e4, e5⟩⟩
    · rintro i hi ⟨d, hd, hs⟩
      obtain ⟨f1, _, _, f4⟩ := h3 i d _ hd (List.getElem?_eq_getElem hi)
      have f1 : VCDUHeader.decode d = some frames[i].header := f1
      rcases hs with hs | ⟨hov, h, q, e1, e2, e3, e4, e5⟩
      · rw [f1] at hs; cases hs
      · rw [f1] at e1; cases e1
        rw [e3] at f4
        simp only [if_neg e2] at f4
        have hlt := decode_counter_lt _ _ f1
        have := (C34_behaviour b frames[i].header.counter q.counter hlt (by omega)).2.2.2 (by omega) e4
        rw [f4, if_pos hov] at this
        cases this
  have hflen : ∀ f ∈ frames, f.data.length + o.virtualFill = 255 * o.interleave.toNat := by
    intro f hf
    have hm : f.data ∈ frames.map (·.data) := List.mem_map.2 ⟨f, hf, rfl⟩
    rw [h2] at hm
    have hm := List.mem_of_mem_take hm
    rw [← hU] at hm
    obtain ⟨u, hu, e⟩ := List.mem_map.1 hm
    rw [← e, hS.length u hu]
    exact hlen
  obtain ⟨outs, ho, hrun⟩ := C42_rs p k code hk o frames hI hvf (fun f hf _ => hflen f hf)
  have hD : Decodes b k o [] (U.take frames.length) outs := decodes_of_frames b k o _ [] frames outs (by rw [List.length_take]; omega) ho (by
    intro i d f hd hf
    have hi := (List.getElem?_eq_some_iff.1 hf).1
    rw [List.getElem?_take_of_lt hi] at hd
    rw [List.take_take, Nat.min_eq_left (by omega)]
    simpa using h3 i d f hd hf)
  have huniq : ∀ frames' p' o' ended', some (o, p) = some (o', p') → Outputs b ⟨derand, some (o, p), len⟩ r frames' ended' → o = o' ∧ p = p' ∧ frames' = frames := by
    intro frames' p' o' ended' he hout
    cases he
    exact ⟨rfl, rfl, (C52_deterministic b _ r frames' frames ended' ended hout h1).1⟩
  refine ⟨⟨o, p, frames, ended, rfl, h1, .init⟩, ?_⟩
  rintro s ⟨o', p', frames', ended', he, hout, hreach⟩
  obtain ⟨rfl, rfl, rfl⟩ := huniq frames' p' o' ended' he hout
  obtain ⟨c1, c2, c3⟩ := hrun s hreach
  constructor
  · intro hw hgone
    obtain ⟨n, t, hst, ht1, ht2⟩ := C43_completes p hw (RS.job k o) frames' (by
      intro f hf hp
      have : RS.job k o f ∈ outs.map Outcome.ret := by rw [ho]; exact List.mem_map.2 ⟨f, hf, rfl⟩
      rw [hp] at this
      obtain ⟨g, _, hg⟩ := List.mem_map.1 this
      cases hg) s hreach hgone
    have hreach' : RsStage.Reach p (RS.job k o) frames' t := by
      clear ht1 ht2 c1 c2 c3 hgone
      induction hst with
      | zero => exact hreach
      | succ _ st ih => exact .step (ih hreach) st
    exact ⟨t, ⟨o, p, frames', ended, rfl, h1, hreach'⟩, ht1⟩
  · intro hc
    have hol : outs.length = frames'.length := by
      have := congrArg List.length ho
      simpa only [List.length_map] using this
    rw [c3 hc, hol]
    exact ⟨hstop, hD⟩

theorem no_roll (t : Transmitter) (v : BitVec 6) (fs : List Fate) (h : t.counter v 0 + fs.length ≤ 2 ^ 24) : short fs (t.rollAt v) = 0 ∧ over fs (t.rollAt v) = 0 := by
  have hge : ∀ (j : Nat) (f : Fate), t.rollAt v ≤ j → fs[j]? = some f → False := by
    intro j f hj hf
    have := (List.getElem?_eq_some_iff.1 hf).1
    unfold rollAt at hj
    omega
  unfold short over
  constructor
  · rw [if_neg]; rw [crossed_iff]; rintro ⟨_, j, f, h1, h2, _⟩; exact hge j f h1 h2
  · rw [if_neg]; rw [seam_iff]; rintro ⟨_, f, h2, _⟩; exact hge _ f (Nat.le_refl _) h2

/-- C127 (frames). The recording of a transmission over a bad link, as in C117, read by the pipeline: there is one frame for each data unit received, in order, with the frame that was
sent if it was received intact or (with correction) could be repaired; and on every channel whose counter does not roll over the gaps reported add up to the number of data units lost between the first and the last received. -/
theorem C127_frames (b : Build) (k : Codec) (hk : Bounded k ccsdsCode) (t : Transmitter) (ht : t.Valid) (packets : BitVec 6 → List (List U8))
    (slots : List (BitVec 6)) (hsent : ∀ v, v ≠ 63 → slots.count v * t.zoneSize ≤ (packets v).flatten.length)
    (hchecks : b.overflowChecks = true → ∀ v, v ≠ 63 → t.counter v 0 + slots.count v ≤ 2 ^ 24)
    (fates : List Fate) (hfates : List.Forall₂ t.Befalls (t.cadus packets slots) fates) (r : Reader) (hr : Records r (fates.flatMap Fate.bytes))
    (o : RS.Opts) (hI : o.interleave.toNat = t.depth) (hvf : o.virtualFill = t.fill) (p : RsStage.Params) :
    (1 ≤ p.workers → ∃ s, Runs b k ⟨t.randomized, some (o, p), t.blockSize⟩ r s ∧ s.cons = .ended) ∧
    ∀ s, Runs b k ⟨t.randomized, some (o, p), t.blockSize⟩ r s → s.cons = .ended →
      List.Forall₂ (t.Shows packets o.correct) (heardSlots slots fates) s.got ∧ gapsOn s.got 63 = 0 ∧
      ∀ v : BitVec 6, v ≠ 63 →
        (t.counter v 0 + slots.count v ≤ 2 ^ 24 → gapsOn s.got (v.setWidth 16) = lostInside (fatesOf slots fates v)) ∧
        (slots.count v ≤ 2 ^ 24 → gapsOn s.got (v.setWidth 16) + (if crossed (fatesOf slots fates v) (t.rollAt v) then 1 else 0) =
          lostInside (fatesOf slots fates v) + if seam (fatesOf slots fates v) (t.rollAt v) then 2 ^ 32 else 0) := by
  obtain ⟨units, post, S, hunits, hgap, hpost, hS, hr⟩ := hr
  have hnl : (number [] slots).length = slots.length := number_length _ _
  unfold cadus at hfates
  rw [List.forall₂_map_left_iff] at hfates
  have hfl : (number [] slots).length = fates.length := hfates.length_eq
  have hL : ∃ L : List Slot, L = (number [] slots).zip fates := ⟨_, rfl⟩
  obtain ⟨L, hLe⟩ := hL
  have hL2 : L.map (·.2) = fates := by rw [hLe]; exact List.map_snd_zip (by omega)
  have hnum : Numbered L := by
    intro A x B e
    rw [hLe] at e
    have := number_numbered slots [] fates A x B e
    rw [this]; simp
  have hchan : ∀ v, chan v L = fatesOf slots fates v := fun v => by rw [hLe]; exact chan_zip v slots [] fates
  have hclen : ∀ v, (chan v L).length = slots.count v := fun v => by rw [hchan, fatesOf_length v slots fates (by omega)]
  have hmem : ∀ x ∈ L, x.1 ∈ number [] slots ∧ t.Befalls (t.cadu (packets x.1.1) x.1.1 x.1.2) x.2 := by
    intro x hx
    rw [hLe] at hx
    exact ⟨(List.of_mem_zip hx).1, (List.forall₂_iff_zip.1 hfates).2 hx⟩
  have hroom : ∀ x ∈ L, x.1.1 ≠ 63 → (x.1.2 + 1) * t.zoneSize ≤ (packets x.1.1).flatten.length := by
    intro x hx hv
    exact Nat.le_trans (Nat.mul_le_mul_right _ (number_lt slots x.1 (hmem x hx).1).2) (hsent x.1.1 hv)
  have hrx : ∀ x ∈ L, ∀ rx ∈ x.2.bytes, VCDUHeader.decode (t.unrand (rx.drop 4)) = some (t.header x.1.1 x.1.2) ∧ rx = marker ++ rx.drop 4 ∧ (rx.drop 4).length = t.blockSize := by
    intro x hx rx hrx
    have hb := (hmem x hx).2
    cases hf : x.2 with
    | lost => rw [hf] at hrx; simp [Fate.bytes] at hrx
    | received y =>
      rw [hf] at hrx hb
      simp only [Fate.bytes, List.mem_singleton] at hrx
      subst hrx
      exact start_intact t ht _ _ _ (hroom x hx) rx hb.length hb.start
    | spoiled y =>
      rw [hf] at hrx hb
      simp only [Fate.bytes, List.mem_singleton] at hrx
      subst hrx
      exact start_intact t ht _ _ _ (hroom x hx) rx hb.length hb.start
  have hhead : ∀ x ∈ L, ∀ rx ∈ (t.slotSent packets x).rx, VCDUHeader.decode rx = some (t.header x.1.1 x.1.2) := by
    intro x hx rx hrx'
    rw [slotSent_rx] at hrx'
    obtain ⟨y, hy, rfl⟩ := List.mem_map.1 hrx'
    exact (hrx x hx y hy).1
  have hts : ∃ ts : List Sent, ts = L.map (t.slotSent packets) := ⟨_, rfl⟩
  obtain ⟨ts, htse⟩ := hts
  have htsrx : ts.flatMap Sent.rx = L.flatMap fun x => (t.slotSent packets x).rx := by rw [htse, List.flatMap_map]
  have hrxs : ts.flatMap Sent.rx = (units.map fun u => (u.1, t.unrand (u.2.drop 4))).map (·.2) := by
    rw [htsrx, List.map_map]
    have : (units.map fun u => t.unrand (u.2.drop 4)) = (units.map (·.2)).map fun rx => t.unrand (rx.drop 4) := by rw [List.map_map]; rfl
    show _ = units.map fun u => t.unrand (u.2.drop 4)
    rw [this, hunits, ← hL2, List.flatMap_map, List.map_flatMap]
    simp only [slotSent_rx]
  have hub : ∀ u ∈ units, u.2 = marker ++ u.2.drop 4 ∧ (u.2.drop 4).length = t.blockSize := by
    intro u hu
    have : u.2 ∈ fates.flatMap Fate.bytes := by rw [← hunits]; exact List.mem_map.2 ⟨u, hu, rfl⟩
    obtain ⟨f, hf, hb⟩ := List.mem_flatMap.1 this
    rw [← hL2] at hf
    obtain ⟨x, hx, rfl⟩ := List.mem_map.1 hf
    exact (hrx x hx _ hb).2
  have hcarries := link_carries t units post hub hgap hpost S hS
  have hff := fill_frame t ht
  have hbf : t.blockSize = t.frameSize + 32 * t.depth := rfl
  have hdep := ht.depth.1
  -- nothing stops the receiver
  have hgo : ∀ i, ¬ StopsAt b (ts.flatMap Sent.rx) i := by
    rintro i ⟨d, hd, hs⟩
    rw [htsrx] at hd hs
    obtain ⟨A, x, B, e1, e2, e3⟩ := flatMap_index (fun x => (t.slotSent packets x).rx) L (by
      intro x _
      unfold slotSent
      split <;> simp [Sent.rx]) i d hd
    have hx : x ∈ L := by rw [e1]; simp
    have h1 := hhead x hx d (by rw [e2]; simp)
    have h2 := (number_lt slots x.1 (hmem x hx).1).2
    rcases hs with hs | ⟨hov, h, q, g1, g2, g3, g4, g5⟩
    · rw [h1] at hs; cases hs
    · rw [h1] at g1
      rw [← Option.some.inj g1] at g2 g3 g5
      rw [← e3] at g3
      obtain ⟨m, f, f1, f2, f3, f4⟩ := last_heard t packets x.1.1 A (by
        rw [e1] at hnum; exact hnum.prefix) (fun y hy => hhead y (by rw [e1]; exact List.mem_append_left _ hy)) q g3
      have hnx := hnum A x B e1
      have hmA := (List.getElem?_eq_some_iff.1 f2).1
      have hctr : ∀ n, (t.header x.1.1 n).counter.toNat = (t.first x.1.1 + n) % 2 ^ 24 := by
        intro n
        show (BitVec.ofNat 32 ((t.first x.1.1 + n) % 2 ^ 24)).toNat = (t.first x.1.1 + n) % 2 ^ 24
        rw [BitVec.toNat_ofNat]
        omega
      rw [f1, hctr] at g4
      rw [hctr] at g5
      have hc := hchecks hov x.1.1 (by rintro h; exact g2 (by rw [h]; show (63#6).setWidth 16 = (63 : U16); decide))
      unfold counter at hc
      omega
  obtain ⟨hinit, hruns⟩ := stage_decodes b k ccsdsCode hk t.randomized o p (by rw [hI]; omega) (by rw [hI, hvf]; omega) r S t.blockSize
    (units.map fun u => (u.1, t.unrand (u.2.drop 4))) post hr hcarries (by rw [hI, hvf]; omega)
  refine ⟨fun hw => (hruns _ hinit).1 hw (by simp [RsStage.State.init]), fun s hs hend => ?_⟩
  obtain ⟨hh, hdec⟩ := (hruns s hs).2 hend
  rw [← hrxs] at hh hdec
  have hn : s.got.length = (ts.flatMap Sent.rx).length := by
    rcases hh.1 with h | h
    · exact h
    · exact absurd h (hgo _)
  rw [hn, List.take_length, htsrx] at hdec
  obtain ⟨d1, d2, d3⟩ := decodes_shows hk ht hI hvf L hnum hroom (fun x hx => (hmem x hx).2) hhead L [] s.got rfl hdec
  have hgen : ∀ v : BitVec 6, v ≠ 63 → slots.count v ≤ 2 ^ 24 → (b.overflowChecks = false ∨ t.counter v 0 + slots.count v ≤ 2 ^ 24) →
      gapsOn s.got (v.setWidth 16) + short (fatesOf slots fates v) (t.rollAt v) = lostInside (fatesOf slots fates v) + over (fatesOf slots fates v) (t.rollAt v) := by
    intro v hv h1 h2
    have := d3 v hv (by rw [hclen]; exact h1) (by rw [hclen]; exact h2)
    rw [hchan] at this
    have e1 : lostInside (chan v []) = 0 := rfl
    have e2 : short (chan v []) (t.rollAt v) = 0 := by unfold short crossed chan; simp
    have e3 : over (chan v []) (t.rollAt v) = 0 := by unfold over seam chan; simp
    omega
  refine ⟨by unfold heardSlots; rw [← hLe]; exact d1, d2, fun v hv => ⟨fun hc => ?_, fun hc => ?_⟩⟩
  · have h1 := hgen v hv (by omega) (.inr hc)
    obtain ⟨e1, e2⟩ := no_roll t v (fatesOf slots fates v) (by rw [← hchan, hclen]; exact hc)
    omega
  · refine hgen v hv hc ?_
    cases hb : b.overflowChecks with
    | false => exact .inl rfl
    | true => exact .inr (hchecks hb v hv)

theorem asksFor_iff {t : Transmitter} {packets : BitVec 6 → List (List U8)} {repair : Bool} {x : (BitVec 6 × Nat) × Fate} {g : Frame} (a : Framing.Args) (h : t.Shows packets repair x g) :
    asksFor a x.1.1 = true ↔ decide (Wanted a g) = true := by
  have h63 : g.header.vcid = 63 ↔ x.1.1 = 63 := by
    rw [h.vcid]
    exact ⟨fun e => wide_inj (w := 63#6) e, fun e => by rw [e]; decide⟩
  rw [decide_eq_true_eq]
  unfold asksFor Wanted
  rw [h63, h.vcid]
  by_cases h1 : x.1.1 = 63
  · simp [h1, and_assoc]
  · have h1' : ¬ x.1.1 = 63#6 := h1
    simp [h1']

theorem usable_received (t : Transmitter) (packets : BitVec 6 → List (List U8)) (repair : Bool) (v : BitVec 6) (n : Nat) (rx : List U8) :
    t.usable packets repair ((v, n), .received rx) = (repair || decide (rx = t.cadu (packets v) v n)) := rfl

theorem toWrite_data (t : Transmitter) (packets : BitVec 6 → List (List U8)) (repair : Bool) (x : (BitVec 6 × Nat) × Fate) (h : x.1.1 ≠ 63) :
    t.toWrite packets repair x = if t.usable packets repair x then [t.frame (packets x.1.1) x.1.1 x.1.2] else [] := by
  unfold toWrite; rw [if_neg h]

theorem heard_single {f : Fate} (h : f.heard = true) : ∃ rx, f.bytes = [rx] := by
  cases f with
  | lost => simp [Fate.heard] at h
  | received y => exact ⟨y, rfl⟩
  | spoiled y => exact ⟨y, rfl⟩

theorem heard_bytes {f : Fate} (h : f.heard = true) : ∃ rx, rx ∈ f.bytes := by
  obtain ⟨rx, e⟩ := heard_single h
  exact ⟨rx, by rw [e]; simp⟩

theorem verdict_facts (t : Transmitter) (packets : BitVec 6 → List (List U8)) (repair : Bool) (x : (BitVec 6 × Nat) × Fate) :
    t.verdict packets repair x ≠ some .failed ∧ (t.verdict packets repair x = none ↔ x.1.1 = 63) ∧
    ((t.verdict packets repair x = some .uncorrectable ∨ t.verdict packets repair x = some .notCorrected) ↔ x.1.1 ≠ 63 ∧ t.usable packets repair x = false) := by
  unfold verdict usable
  by_cases h63 : x.1.1 = 63
  · simp [h63]
  · rw [if_neg h63]
    have h63' : ¬ x.1.1 = 63#6 := h63
    split
    · rename_i rx _
      by_cases hc : rx = t.cadu (packets x.1.1) x.1.1 x.1.2 <;> cases repair <;> simp [h63', hc]
    · cases repair <;> simp [h63']

theorem blockIn_eq (t : Transmitter) (rx : List U8) : t.blockIn rx = t.unrand (rx.drop 4) := rfl

theorem shows_counted {t : Transmitter} {packets : BitVec 6 → List (List U8)} {repair : Bool} {xs : List ((BitVec 6 × Nat) × Fate)} {gs : List Frame}
    (h : List.Forall₂ (t.Shows packets repair) xs gs) (hx : ∀ x ∈ xs, x.2.heard = true)
    (hlen : ∀ x ∈ xs, (x.1.1 ≠ 63 → (t.frame (packets x.1.1) x.1.1 x.1.2).length = t.frameSize) ∧ ∀ rx ∈ x.2.bytes, (rx.drop 4).length = t.blockSize) (c : Framing.Tally) (hc : Tallies c gs) : Counted t packets repair c xs := by
  have key : ∀ (p : Option Integrity → Bool), (gs.countP fun g => p g.integrity) = xs.countP fun x => p (t.verdict packets repair x) := by
    intro p
    clear hc
    induction h with
    | nil => rfl
    | cons h0 _ ih =>
      rw [List.countP_cons, List.countP_cons, ih (fun y hy => hx y (List.mem_cons_of_mem _ hy)) (fun y hy => hlen y (List.mem_cons_of_mem _ hy)), h0.integrity]
  have hsum : (gs.map fun f => f.data.length).sum = (xs.map fun x => if x.1.1 ≠ 63 ∧ t.usable packets repair x = true then t.frameSize else t.blockSize).sum := by
    clear hc key
    induction h with
    | nil => rfl
    | @cons x g xs gs h0 _ ih =>
      rw [List.map_cons, List.map_cons, List.sum_cons, List.sum_cons, ih (fun y hy => hx y (List.mem_cons_of_mem _ hy)) (fun y hy => hlen y (List.mem_cons_of_mem _ hy))]
      congr 1
      obtain ⟨l1, l2⟩ := hlen x (by simp)
      have hh := hx x (by simp)
      by_cases hu : x.1.1 ≠ 63 ∧ t.usable packets repair x = true
      · rw [if_pos hu, h0.sent hu.1 hu.2, l1 hu.1]
      · rw [if_neg hu]
        obtain ⟨rx, hrx⟩ := heard_bytes hh
        rw [h0.left (fun h => by cases e : t.usable packets repair x; rfl; exact absurd ⟨h, e⟩ hu) rx hrx, blockIn_eq, unrand_length]
        exact l2 rx hrx
  refine ⟨by rw [hc.frames, h.length_eq], ?_, ?_, ?_, ?_, ?_, by rw [hc.bytes, hsum]⟩
  · rw [hc.ok]; exact key fun i => decide (i = some .ok)
  · rw [hc.corrected]; exact key fun i => decide (i = some .corrected)
  · rw [hc.uncorrectable]
    refine (key fun i => decide (i = some .uncorrectable ∨ i = some .notCorrected)).trans (List.countP_congr fun x _ => ?_)
    have := (verdict_facts t packets repair x).2.2
    rw [decide_eq_true_eq, decide_eq_true_eq]; exact this
  · rw [hc.notPerformed]
    refine (key fun i => decide (i = none)).trans (List.countP_congr fun x _ => ?_)
    have := (verdict_facts t packets repair x).2.1
    rw [decide_eq_true_eq, decide_eq_true_eq]; exact this
  · rw [hc.error]
    refine (key fun i => decide (i = some .failed)).trans ?_
    rw [List.countP_eq_zero]
    intro x _
    simp [(verdict_facts t packets repair x).1]

theorem shows_written {t : Transmitter} {packets : BitVec 6 → List (List U8)} {repair : Bool} {xs : List ((BitVec 6 × Nat) × Fate)} {gs : List Frame}
    (h : List.Forall₂ (t.Shows packets repair) xs gs) (hx : ∀ x ∈ xs, x.2.heard = true)
    (hlen : ∀ x ∈ xs, (x.1.1 ≠ 63 → (t.frame (packets x.1.1) x.1.1 x.1.2).length = t.frameSize) ∧ ∀ rx ∈ x.2.bytes, (rx.drop 4).length = t.blockSize) :
    (gs.filter fun f => decide (Acceptable f)).map (fun f => f.data.take t.frameSize) = xs.flatMap (t.toWrite packets repair) := by
  induction h with
  | nil => rfl
  | @cons x g xs gs h0 _ ih =>
    rw [List.flatMap_cons, ← ih (fun y hy => hx y (List.mem_cons_of_mem _ hy)) (fun y hy => hlen y (List.mem_cons_of_mem _ hy)), List.filter_cons]
    have hh := hx x (by simp)
    obtain ⟨l1, _⟩ := hlen x (by simp)
    obtain ⟨v1, v2, v3⟩ := verdict_facts t packets repair x
    rw [← h0.integrity] at v1 v2 v3
    have hacc : Acceptable g ↔ ¬ (x.1.1 ≠ 63 ∧ t.usable packets repair x = false) := by
      rw [← v3]
      unfold Acceptable
      cases hi : g.integrity with
      | none => simp
      | some i => cases i <;> simp_all
    unfold toWrite
    by_cases h63 : x.1.1 = 63
    · rw [if_pos h63, if_pos (by rw [decide_eq_true_eq, hacc]; exact fun h => h.1 h63), List.map_cons]
      obtain ⟨rx, hrx⟩ := heard_single hh
      rw [hrx, h0.left (fun h => absurd h63 h) rx (by rw [hrx]; simp)]
      rfl
    · rw [if_neg h63]
      cases hu : t.usable packets repair x with
      | true =>
        rw [if_pos (by rw [decide_eq_true_eq, hacc, hu]; simp), List.map_cons, h0.sent h63 hu, ← l1 h63, List.take_length]
        rfl
      | false =>
        rw [if_neg (by rw [decide_eq_true_eq, hacc, hu]; exact fun h => h ⟨h63, rfl⟩)]
        rfl

/-- C127. `ccsds framing`, with a command line that fits the transmitter, on the recording of a transmission over a bad link: it ends; it writes, in order, the frames that were sent, of
all data units on a channel asked for that were received intact or, if correction is asked for, repairably (of fill, if asked for, what was received), and nothing else; and its summary says of these channels how many data units were
received, intact, corrected, beyond repair, and (unless the counter rolls over) how many were lost between the first and the last received. -/
theorem C127_command (b : Build) (k : Codec) (hk : Bounded k ccsdsCode) (t : Transmitter) (ht : t.Valid) (packets : BitVec 6 → List (List U8))
    (slots : List (BitVec 6)) (hsent : ∀ v, v ≠ 63 → slots.count v * t.zoneSize ≤ (packets v).flatten.length)
    (hchecks : b.overflowChecks = true → ∀ v, v ≠ 63 → t.counter v 0 + slots.count v ≤ 2 ^ 24)
    (fates : List Fate) (hfates : List.Forall₂ t.Befalls (t.cadus packets slots) fates) (r : Reader) (hr : Records r (fates.flatMap Fate.bytes))
    (a : Framing.Args) (ha : Suits a t) (workers : Nat) :
    (1 ≤ workers → ∃ s w, Framing.Runs b k a workers r s w) ∧
    ∀ s w, Framing.Runs b k a workers r s w →
      w = (if a.output then ((heardSlots slots fates).filter fun x => asksFor a x.1.1).flatMap (t.toWrite packets a.correct) else []) ∧
      Counted t packets a.correct s.tally ((heardSlots slots fates).filter fun x => asksFor a x.1.1) ∧
      s.vcids.Pairwise (fun x y => x.vcid < y.vcid) ∧
      (∀ v : BitVec 6, (∃ i ∈ s.vcids, i.vcid = v.setWidth 16) ↔ asksFor a v = true ∧ ∃ x ∈ heardSlots slots fates, x.1.1 = v) ∧
      ∀ i ∈ s.vcids, ∃ v : BitVec 6, i.vcid = v.setWidth 16 ∧ Counted t packets a.correct i.tally ((heardSlots slots fates).filter fun x => x.1.1 = v) ∧
        (v = 63 → i.tally.missing = 0) ∧
        (v ≠ 63 → t.counter v 0 + slots.count v ≤ 2 ^ 24 → i.tally.missing = lostInside (fatesOf slots fates v)) ∧
        (v ≠ 63 → slots.count v ≤ 2 ^ 24 → i.tally.missing + (if crossed (fatesOf slots fates v) (t.rollAt v) then 1 else 0) =
          lostInside (fatesOf slots fates v) + if seam (fatesOf slots fates v) (t.rollAt v) then 2 ^ 32 else 0) := by
  obtain ⟨il, hil, hd⟩ := ha.rs
  have hcfg : Framing.config a workers = ⟨t.randomized, some (⟨il, a.virtualfill, a.detect || a.correct, a.correct⟩, ⟨a.buffersize, workers⟩), t.blockSize⟩ := by
    unfold Framing.config
    rw [hil]
    simp only [Option.getD_some, ha.length, hd]
    have hp := ha.pn
    cases hpn : a.pn <;> rw [hpn] at hp <;> rw [← hp] <;> rfl
  obtain ⟨hex, hall⟩ := C127_frames b k hk t ht packets slots hsent hchecks fates hfates r hr ⟨il, a.virtualfill, a.detect || a.correct, a.correct⟩ hd ha.fill
    ⟨a.buffersize, workers⟩
  rw [← hcfg] at hex hall
  constructor
  · intro hw
    obtain ⟨s, hs, hend⟩ := hex hw
    obtain ⟨s', w, hfin⟩ := (C57_pipeline b k a workers r).2 s hs
    exact ⟨s', w, .rs hil hs hend hfin⟩
  · intro s w hrun
    cases hrun with
    | plain hn => rw [hil] at hn; cases hn
    | @rs _ st _ _ _ hs hend hfin =>
      obtain ⟨hshow, hfillgap, hgap⟩ := hall st hs hend
      obtain ⟨hrep, hwr⟩ := (C57_summary a st.got).1 s w hfin
      have hheard : ∀ x ∈ heardSlots slots fates, x.2.heard = true := fun x hx => (List.mem_filter.1 hx).2
      have hfl : (number [] slots).length = fates.length := by
        have := hfates.length_eq
        unfold cadus at this
        rw [List.length_map] at this
        exact this
      have hlen : ∀ x ∈ heardSlots slots fates, (x.1.1 ≠ 63 → (t.frame (packets x.1.1) x.1.1 x.1.2).length = t.frameSize) ∧ ∀ rx ∈ x.2.bytes, (rx.drop 4).length = t.blockSize := by
        intro x hx
        have hz := (List.mem_filter.1 hx).1
        have hroom : x.1.1 ≠ 63 → (x.1.2 + 1) * t.zoneSize ≤ (packets x.1.1).flatten.length := fun hv =>
          Nat.le_trans (Nat.mul_le_mul_right _ (number_lt slots x.1 (List.of_mem_zip hz).1).2) (hsent x.1.1 hv)
        refine ⟨fun _ => frame_length t ht _ _ _ hroom, fun rx hrx => ?_⟩
        have hb : t.Befalls (t.cadu (packets x.1.1) x.1.1 x.1.2) x.2 := by
          unfold cadus at hfates
          rw [List.forall₂_map_left_iff] at hfates
          exact (List.forall₂_iff_zip.1 hfates).2 hz
        cases hf : x.2 with
        | lost => rw [hf] at hrx; simp [Fate.bytes] at hrx
        | received y =>
          rw [hf] at hrx hb
          simp only [Fate.bytes, List.mem_singleton] at hrx
          subst hrx
          exact (start_intact t ht _ _ _ hroom rx hb.length hb.start).2.2
        | spoiled y =>
          rw [hf] at hrx hb
          simp only [Fate.bytes, List.mem_singleton] at hrx
          subst hrx
          exact (start_intact t ht _ _ _ hroom rx hb.length hb.start).2.2
      have hwant : List.Forall₂ (t.Shows packets a.correct) ((heardSlots slots fates).filter fun x => asksFor a x.1.1) (wanted a st.got) := by
        unfold wanted
        exact List.rel_filter (fun {x g} h => asksFor_iff a h) hshow
      have hsub : ∀ p : ((BitVec 6 × Nat) × Fate) → Bool, ∀ x ∈ (heardSlots slots fates).filter p, x ∈ heardSlots slots fates := fun p x hx => (List.mem_filter.1 hx).1
      have hline : ∀ v : BitVec 6, asksFor a v = true → ofVcid (wanted a st.got) (v.setWidth 16) = ofVcid st.got (v.setWidth 16) := by
        intro v hv
        unfold ofVcid wanted
        rw [List.filter_filter]
        apply List.filter_congr
        intro g hg
        by_cases he : g.header.vcid = v.setWidth 16
        · obtain ⟨x, hx, hs⟩ : ∃ x ∈ heardSlots slots fates, t.Shows packets a.correct x g := by
            obtain ⟨n, hn, e⟩ := List.getElem_of_mem hg
            have hn' : n < (heardSlots slots fates).length := by rw [hshow.length_eq]; exact hn
            have := hshow.get hn' hn
            simp only [List.get_eq_getElem] at this
            rw [e] at this
            exact ⟨_, List.getElem_mem hn', this⟩
          have hxv : x.1.1 = v := wide_inj (by rw [← hs.vcid]; exact he)
          have := (asksFor_iff a hs).1 (by rw [hxv]; exact hv)
          rw [this]; simp
        · simp [he]
      refine ⟨?_, ?_, hrep.ascending, ?_, ?_⟩
      · rw [hwr, ha.length]
        split
        · exact shows_written hwant (fun x hx => hheard x (hsub _ x hx)) (fun x hx => hlen x (hsub _ x hx))
        · rfl
      · exact shows_counted hwant (fun x hx => hheard x (hsub _ x hx)) (fun x hx => hlen x (hsub _ x hx)) _ hrep.total
      · intro v
        rw [hrep.channels]
        constructor
        · rintro ⟨g, hg, e⟩
          obtain ⟨n, hn, e'⟩ := List.getElem_of_mem hg
          have hn' : n < ((heardSlots slots fates).filter fun x => asksFor a x.1.1).length := by rw [hwant.length_eq]; exact hn
          have hs := hwant.get hn' hn
          simp only [List.get_eq_getElem] at hs
          rw [e'] at hs
          have hx := List.getElem_mem hn'
          have hxv := wide_inj (hs.vcid.symm.trans e)
          have hm := List.mem_filter.1 hx
          exact ⟨by rw [← hxv]; exact hm.2, _, hm.1, hxv⟩
        · rintro ⟨hv, x, hx, rfl⟩
          have hx' : x ∈ (heardSlots slots fates).filter fun x => asksFor a x.1.1 := List.mem_filter.2 ⟨hx, hv⟩
          obtain ⟨n, hn, e'⟩ := List.getElem_of_mem hx'
          have hn' : n < (wanted a st.got).length := by rw [← hwant.length_eq]; exact hn
          have hs := hwant.get hn hn'
          simp only [List.get_eq_getElem] at hs
          rw [e'] at hs
          exact ⟨_, List.getElem_mem hn', hs.vcid⟩
      · intro i hi
        obtain ⟨g, hg, e⟩ := (hrep.channels i.vcid).1 ⟨i, hi, rfl⟩
        obtain ⟨n, hn, e'⟩ := List.getElem_of_mem hg
        have hn' : n < ((heardSlots slots fates).filter fun x => asksFor a x.1.1).length := by rw [hwant.length_eq]; exact hn
        have hs := hwant.get hn' hn
        simp only [List.get_eq_getElem] at hs
        rw [e'] at hs
        have hm := List.mem_filter.1 (List.getElem_mem hn')
        generalize ((heardSlots slots fates).filter fun x => asksFor a x.1.1)[n] = x at hs hm
        refine ⟨x.1.1, by rw [← e, hs.vcid], ?_⟩
        have hc := hrep.counts i hi
        rw [← e, hs.vcid, hline _ hm.2] at hc
        have hch : List.Forall₂ (t.Shows packets a.correct) ((heardSlots slots fates).filter fun y => y.1.1 = x.1.1) (ofVcid st.got (x.1.1.setWidth 16)) := by
          unfold ofVcid
          refine List.rel_filter (fun {y g} h => ?_) hshow
          simp only [decide_eq_true_eq]
          rw [h.vcid]
          exact ⟨fun e => by rw [e], fun e => wide_inj e⟩
        refine ⟨shows_counted hch (fun y hy => hheard y (hsub _ y hy)) (fun y hy => hlen y (hsub _ y hy)) _ hc, ?_, ?_, ?_⟩
        · intro h63
          rw [hc.missing]
          rw [h63]
          exact hfillgap
        · intro h63 hroll
          rw [hc.missing]
          exact (hgap _ h63).1 hroll
        · intro h63 hroll
          rw [hc.missing]
          exact (hgap _ h63).2 hroll

/-! A concrete case: three frames of channel 1 with a data zone of 100 bytes, a fill frame, another frame of channel 1. The first is received intact, the second is lost, the third has a
wrong byte, the fill frame is received, the last is lost. Two frames are written, and one is reported missing. -/
namespace FramingEx

def tx : Transmitter := ⟨157, 0, fun _ => 77, fun _ _ => [], fun _ _ => [], fun _ => List.replicate 102 0x55, 0, 0, 100, 1, true⟩
def slots : List (BitVec 6) := [1, 1, 1, 63, 1]
def args : Framing.Args := ⟨108, true, false, some 1, true, true, 115, none, 16, [1, 63], [2], true⟩

theorem tx_valid : tx.Valid := ⟨fun _ _ => rfl, fun _ _ => rfl, fun _ => List.length_replicate, by decide, by decide, by decide⟩
theorem suits : Suits args tx := ⟨rfl, rfl, ⟨1, rfl, rfl⟩, rfl⟩
theorem sent (v : BitVec 6) (hv : v ≠ 63) : slots.count v * tx.zoneSize ≤ (exTxPackets v).flatten.length := by
  by_cases h : v = 1#6
  · rw [h]
    have e : exTxPackets 1#6 = [exP1, exP2] := rfl
    have l1 : exP1.length = 300 := by decide +kernel
    have l2 : exP2.length = 130 := by decide +kernel
    rw [e]
    simp only [List.flatten_cons, List.flatten_nil, List.length_append, l1, l2, List.length_nil]
    decide
  · have : slots.count v = 0 := by
      rw [List.count_eq_zero]
      intro hm
      simp only [slots, List.mem_cons, List.not_mem_nil, or_false] at hm
      rcases hm with rfl | rfl | rfl | rfl | rfl
      all_goals first | exact h rfl | exact hv rfl
    rw [this]; omega
theorem counters (v : BitVec 6) : tx.counter v 0 + slots.count v ≤ 2 ^ 24 := by
  have h1 : slots.count v ≤ slots.length := List.count_le_length
  have h2 : slots.length = 5 := rfl
  have h3 : tx.counter v 0 = 77 := rfl
  omega

@[irreducible] def unit (v : BitVec 6) (n : Nat) : List U8 := tx.cadu (exTxPackets v) v n
def fates : List Fate := [.received (unit 1 0), .lost, .received ((unit 1 2).set 100 7), .received (unit 63 0), .lost]

theorem befalls : List.Forall₂ tx.Befalls (tx.cadus exTxPackets slots) fates := by
  have hn : number [] slots = [(1#6, 0), (1#6, 1), (1#6, 2), (63#6, 0), (1#6, 3)] := by decide
  unfold cadus
  rw [hn]
  simp only [List.map_cons, List.map_nil]
  unfold fates unit
  have h0 := noisy_refl tx (tx.cadu (exTxPackets 1#6) 1#6 0)
  have h1 := noisy_set tx (tx.cadu (exTxPackets 1#6) 1#6 2) 100 7#8 (by omega)
  have h2 := noisy_refl tx (tx.cadu (exTxPackets 63#6) 63#6 0)
  exact .cons h0 (.cons trivial (.cons h1 (.cons h2 (.cons trivial .nil))))

example (b : Build) (r : Reader) (hr : Smooth r (unit 1 0 ++ (unit 1 2).set 100 7 ++ unit 63 0)) :
    (∃ s w, Framing.Runs b (bddCodec ccsdsCode) args 2 r s w) ∧
    ∀ s w, Framing.Runs b (bddCodec ccsdsCode) args 2 r s w →
      w = [tx.frame (exTxPackets 1#6) 1#6 0, tx.frame (exTxPackets 1#6) 1#6 2] ∧ s.tally.frames = 2 ∧ s.tally.uncorrectable = 0 ∧ ∀ i ∈ s.vcids, i.vcid = 1 → i.tally.missing = 1 := by
  have hrec : Records r (fates.flatMap Fate.bytes) := by
    have : fates.flatMap Fate.bytes = [unit 1 0, (unit 1 2).set 100 7, unit 63 0] := rfl
    rw [this]
    exact records_plain r _ (by simpa using hr)
  obtain ⟨h1, h2⟩ := C127_command b (bddCodec ccsdsCode) C113_distance.2 tx tx_valid exTxPackets slots sent (fun _ v _ => counters v) fates befalls r hrec args suits 2
  refine ⟨h1 (by decide), fun s w hw => ?_⟩
  obtain ⟨a1, a2, _, _, a5⟩ := h2 s w hw
  have hh : (heardSlots slots fates).filter (fun x => asksFor args x.1.1) = [((1#6, 0), .received (unit 1 0)), ((1#6, 2), .received ((unit 1 2).set 100 7))] := by
    unfold heardSlots fates
    generalize unit 1 0 = c0
    generalize (unit 1 2).set 100 7 = c1
    generalize unit 63 0 = c2
    rfl
  rw [hh] at a1 a2
  refine ⟨a1, a2.frames, ?_, fun i hi hv => ?_⟩
  · rw [a2.uncorrectable, List.countP_eq_zero]
    intro x hx
    simp only [List.mem_cons, List.not_mem_nil, or_false] at hx
    rcases hx with rfl | rfl
    · exact fun h => Bool.noConfusion (of_decide_eq_true h).2
    · exact fun h => Bool.noConfusion (of_decide_eq_true h).2
  · obtain ⟨v, e, _, _, h3, _⟩ := a5 i hi
    rw [hv] at e
    have hv1 : v = 1#6 := (wide_inj (v := 1#6) e).symm
    subst hv1
    rw [h3 (by decide) (counters _)]
    unfold fates
    generalize unit 1 0 = c0
    generalize (unit 1 2).set 100 7 = c1
    generalize unit 63 0 = c2
    rfl

/-! The same recording, except that the wrong byte is any wrong byte, without correction: the damaged frame is only counted. -/
def seeArgs : Framing.Args := { args with correct := false }
theorem see_suits : Suits seeArgs tx := ⟨rfl, rfl, ⟨1, rfl, rfl⟩, rfl⟩
@[irreducible] def hit : List U8 := (unit 1#6 2).set 100 ((unit 1#6 2).getD 100 0 ^^^ 1#8)
theorem hit_ne : hit ≠ unit 1#6 2 := by
  have hl : (unit 1#6 2).length = 144 := by
    unfold unit
    rw [cadu_eq, List.length_append, unrand_length, block_length tx tx_valid _ _ _ (fun _ => ?_)]
    · rfl
    · have := sent 1#6 (by decide)
      exact Nat.le_trans (Nat.mul_le_mul_right _ (by decide)) this
  intro e
  unfold hit at e
  have e := congrArg (fun l => l.getD 100 0#8) e
  generalize unit 1#6 2 = u at hl e
  have h100 : 100 < u.length := by omega
  rw [List.getD_eq_getElem?_getD, List.getElem?_set_self h100, Option.getD_some] at e
  have hx : ∀ y : U8, y ^^^ 1#8 ≠ y := by decide +kernel
  exact hx _ e

def seeFates : List Fate := [.received (unit 1#6 0), .lost, .received hit, .received (unit 63#6 0), .lost]

theorem see_befalls : List.Forall₂ tx.Befalls (tx.cadus exTxPackets slots) seeFates := by
  have hn : number [] slots = [(1#6, 0), (1#6, 1), (1#6, 2), (63#6, 0), (1#6, 3)] := by decide
  unfold cadus
  rw [hn]
  simp only [List.map_cons, List.map_nil]
  unfold seeFates hit unit
  have h0 := noisy_refl tx (tx.cadu (exTxPackets 1#6) 1#6 0)
  have h1 := noisy_set tx (tx.cadu (exTxPackets 1#6) 1#6 2) 100 ((tx.cadu (exTxPackets 1#6) 1#6 2).getD 100 0 ^^^ 1#8) (by omega)
  have h2 := noisy_refl tx (tx.cadu (exTxPackets 63#6) 63#6 0)
  exact .cons h0 (.cons trivial (.cons h1 (.cons h2 (.cons trivial .nil))))

example (b : Build) (r : Reader) (hr : Smooth r (unit 1#6 0 ++ hit ++ unit 63#6 0)) :
    (∃ s w, Framing.Runs b (bddCodec ccsdsCode) seeArgs 2 r s w) ∧
    ∀ s w, Framing.Runs b (bddCodec ccsdsCode) seeArgs 2 r s w →
      w = [tx.frame (exTxPackets 1#6) 1#6 0] ∧ s.tally.frames = 2 ∧ s.tally.uncorrectable = 1 := by
  have hrec : Records r (seeFates.flatMap Fate.bytes) := by
    have : seeFates.flatMap Fate.bytes = [unit 1#6 0, hit, unit 63#6 0] := rfl
    rw [this]
    exact records_plain r _ (by simpa using hr)
  obtain ⟨h1, h2⟩ := C127_command b (bddCodec ccsdsCode) C113_distance.2 tx tx_valid exTxPackets slots sent (fun _ v _ => counters v) seeFates see_befalls r hrec seeArgs see_suits 2
  refine ⟨h1 (by decide), fun s w hw => ?_⟩
  obtain ⟨a1, a2, _⟩ := h2 s w hw
  have hh : (heardSlots slots seeFates).filter (fun x => asksFor seeArgs x.1.1) = [((1#6, 0), .received (unit 1#6 0)), ((1#6, 2), .received hit)] := by
    unfold heardSlots seeFates
    generalize unit 1#6 0 = c0
    generalize hit = c1
    generalize unit 63#6 0 = c2
    rfl
  rw [hh] at a1 a2
  have hsee : seeArgs.correct = false := rfl
  have u0 : tx.usable exTxPackets seeArgs.correct ((1#6, 0), .received (unit 1#6 0)) = true := by
    unfold unit
    rw [usable_received, hsee, Bool.false_or, decide_eq_true_eq]
  have u1 : tx.usable exTxPackets seeArgs.correct ((1#6, 2), .received hit) = false := by
    have := hit_ne
    unfold unit at this
    rw [usable_received, hsee, Bool.false_or, decide_eq_false_iff_not]
    exact this
  have w0 : tx.toWrite exTxPackets seeArgs.correct ((1#6, 0), .received (unit 1#6 0)) = [tx.frame (exTxPackets 1#6) 1#6 0] := by
    rw [toWrite_data _ _ _ _ (by decide), u0]; rfl
  have w1 : tx.toWrite exTxPackets seeArgs.correct ((1#6, 2), .received hit) = [] := by
    rw [toWrite_data _ _ _ _ (by decide), u1]; rfl
  have ho : seeArgs.output = true := rfl
  refine ⟨?_, a2.frames, ?_⟩
  · rw [a1, if_pos ho, List.flatMap_cons, List.flatMap_cons, List.flatMap_nil, w0, w1]
    rfl
  · have e0 : decide ((1#6 : BitVec 6) ≠ 63 ∧ tx.usable exTxPackets seeArgs.correct ((1#6, 0), .received (unit 1#6 0)) = false) = false := by rw [u0]; decide
    have e1 : decide ((1#6 : BitVec 6) ≠ 63 ∧ tx.usable exTxPackets seeArgs.correct ((1#6, 2), .received hit) = false) = true := by rw [u1]; decide
    rw [a2.uncorrectable, List.countP_cons_of_neg (by rw [Bool.not_eq_true]; exact e0), List.countP_cons_of_pos (by exact e1), List.countP_nil]

end FramingEx

end Ccsds
