import Verif.Spec.Diff
import Verif.Props.Filter
/-!
# C54: `ccsds diff`
-/
namespace Ccsds
open Spec Diff

/-! ## Auxiliary: the order on keys -/

/-- A key as one number. -/
def Diff.Key.val (k : Key) : Nat := (k.apid.toNat * 2 ^ 16 + k.seq.toNat) * 2 ^ 32 + k.crc.toNat

theorem key_lt_iff (a b : Key) : a.lt b = true ↔ a.val < b.val := by
  have h1 := a.crc.isLt
  have h2 := b.crc.isLt
  have h3 := a.seq.isLt
  have h4 := b.seq.isLt
  simp only [Key.lt, Key.val, Bool.or_eq_true, Bool.and_eq_true, decide_eq_true_eq, beq_iff_eq, BitVec.lt_def, ← BitVec.toNat_inj]
  omega

theorem key_val_inj {a b : Key} (h : a.val = b.val) : a = b := by
  have h1 := a.crc.isLt
  have h2 := b.crc.isLt
  have h3 := a.seq.isLt
  have h4 := b.seq.isLt
  simp only [Key.val] at h
  have e1 : a.apid = b.apid := BitVec.eq_of_toNat_eq (by omega)
  have e2 : a.seq = b.seq := BitVec.eq_of_toNat_eq (by omega)
  have e3 : a.crc = b.crc := BitVec.eq_of_toNat_eq (by omega)
  cases a; cases b
  simp_all

theorem greatest_iff (k : Key) (l : List Key) : Greatest k l ↔ ∀ x ∈ l, x.val ≤ k.val := by
  unfold Greatest
  refine forall_congr' fun x => forall_congr' fun _ => ?_
  have h1 := x.crc.isLt
  have h2 := k.crc.isLt
  have h3 := x.seq.isLt
  have h4 := k.seq.isLt
  simp only [Key.val, BitVec.lt_def, BitVec.le_def, ← BitVec.toNat_inj]
  omega

/-- Sorted by `val` -/
def Asc (l : List Key) : Prop := l.Pairwise (fun a b => a.val ≤ b.val)

/-- `left.sort()` -/
abbrev sortKeys (l : List Key) : List Key := l.mergeSort (fun a b => !b.lt a)

theorem sortKeys_asc (l : List Key) : Asc (sortKeys l) := by
  have hle : ∀ a b : Key, (!b.lt a) = true ↔ a.val ≤ b.val := by
    intro a b
    rw [Bool.not_eq_true', ← Bool.not_eq_true, key_lt_iff]
    omega
  have := List.pairwise_mergeSort (le := fun a b : Key => !b.lt a)
    (fun a b c h k => by rw [hle] at *; omega) (fun a b => by rw [Bool.or_eq_true, hle, hle]; omega) l
  exact this.imp (fun {a b} h => (hle a b).1 h)

theorem sortKeys_perm (l : List Key) : (sortKeys l).Perm l := List.mergeSort_perm _ _

/-! ## Auxiliary: the loop -/

/-- The loop from two sorted lists. -/
def diffLines (l r : List Key) : List Line := loop l.head? l.tail r.head? r.tail

theorem diffLines_nil (r : List Key) : diffLines [] r = r.tail.map .right := by
  unfold diffLines; rw [List.head?_nil, loop]
theorem diffLines_cons_nil (a : Key) (l : List Key) : diffLines (a :: l) [] = l.map .left := by
  unfold diffLines; rw [List.head?_nil, List.head?_cons, loop]; rfl
theorem diffLines_cons (a : Key) (l : List Key) (c : Key) (r : List Key) : diffLines (a :: l) (c :: r) =
    if a = c then diffLines l r else if a.val < c.val then .left a :: diffLines l (c :: r) else .right c :: diffLines (a :: l) r := by
  unfold diffLines
  rw [List.head?_cons, List.head?_cons, loop]
  simp only [Key.cmp, List.tail_cons, List.head?_cons]
  by_cases h : a = c
  · simp [h]
  · simp only [h, ↓reduceIte]
    by_cases h' : a.lt c = true
    · simp only [h', ↓reduceIte, (key_lt_iff a c).1 h']
    · have : ¬ a.val < c.val := fun x => h' ((key_lt_iff a c).2 x)
      simp only [h', ↓reduceIte, this]
      rfl

theorem diffLines_spec (n : Nat) : ∀ l r : List Key, l.length + r.length ≤ n → Asc l → Asc r →
    ∃ m : List Line, m.length ≤ 1 ∧ ∀ k, (diffLines l r ++ m).count (.left k) = l.count k - r.count k ∧
      (diffLines l r ++ m).count (.right k) = r.count k - l.count k := by
  have cl : ∀ (l : List Key) k, (l.map Line.left).count (.left k) = l.count k ∧ (l.map Line.left).count (.right k) = 0 := by
    intro l k
    refine ⟨by rw [List.count, List.countP_map, List.count]; apply List.countP_congr; intro x _; simp [Function.comp], ?_⟩
    rw [List.count_eq_zero]; simp
  have cr : ∀ (l : List Key) k, (l.map Line.right).count (.right k) = l.count k ∧ (l.map Line.right).count (.left k) = 0 := by
    intro l k
    refine ⟨by rw [List.count, List.countP_map, List.count]; apply List.countP_congr; intro x _; simp [Function.comp], ?_⟩
    rw [List.count_eq_zero]; simp
  induction n with
  | zero =>
    intro l r hn _ _
    have h1 : l = [] := List.eq_nil_of_length_eq_zero (by omega)
    have h2 : r = [] := List.eq_nil_of_length_eq_zero (by omega)
    subst h1 h2
    exact ⟨[], by simp, by simp [diffLines_nil]⟩
  | succ n ih =>
    intro l r hn hl hr
    cases l with
    | nil =>
      rw [diffLines_nil]
      refine ⟨r.head?.toList.map .right, by cases r <;> simp, ?_⟩
      intro k
      have hp : (r.tail.map Line.right ++ r.head?.toList.map Line.right).Perm (r.map .right) := by
        cases r with
        | nil => simp
        | cons x r => simpa using List.perm_append_comm (l₁ := r.map Line.right) (l₂ := [.right x])
      rw [hp.count_eq, hp.count_eq, (cr r k).1, (cr r k).2]
      simp
    | cons a l =>
      cases r with
      | nil =>
        rw [diffLines_cons_nil]
        refine ⟨[.left a], by simp, ?_⟩
        intro k
        have hp : (l.map Line.left ++ [Line.left a]).Perm ((a :: l).map Line.left) := by
          simpa using List.perm_append_comm (l₁ := l.map Line.left) (l₂ := [.left a])
        rw [hp.count_eq, hp.count_eq, (cl _ k).1, (cl _ k).2]
        simp
      | cons c r =>
        rw [diffLines_cons]
        have hl' := List.pairwise_cons.1 hl
        have hr' := List.pairwise_cons.1 hr
        simp only [List.length_cons] at hn
        split
        · rename_i hac
          subst hac
          obtain ⟨m, h1, h2⟩ := ih l r (by omega) hl'.2 hr'.2
          refine ⟨m, h1, fun k => ?_⟩
          rw [(h2 k).1, (h2 k).2, List.count_cons, List.count_cons]
          omega
        · rename_i hne
          split
          · rename_i hlt
            obtain ⟨m, h1, h2⟩ := ih l (c :: r) (by simp; omega) hl'.2 hr
            refine ⟨m, h1, fun k => ?_⟩
            rw [List.cons_append, List.count_cons, List.count_cons (a := Line.right k), (h2 k).1, (h2 k).2]
            have h0 : (c :: r).count a = 0 := by
              rw [List.count_eq_zero]
              intro hm
              rcases List.mem_cons.1 hm with h | h
              · exact hne h
              · have := hr'.1 a h; omega
            rw [List.count_cons (l := l)]
            by_cases hk : a = k
            · subst hk
              simp [h0]
            · have : ¬ (Line.left a == Line.left k) = true := by simp [hk]
              simp [hk]
          · rename_i hge
            have hlt : c.val < a.val := by
              have : c.val ≠ a.val := fun h => hne (key_val_inj h.symm)
              omega
            obtain ⟨m, h1, h2⟩ := ih (a :: l) r (by simp; omega) hl hr'.2
            refine ⟨m, h1, fun k => ?_⟩
            rw [List.cons_append, List.count_cons, List.count_cons (a := Line.right k), (h2 k).1, (h2 k).2]
            have h0 : (a :: l).count c = 0 := by
              rw [List.count_eq_zero]
              intro hm
              rcases List.mem_cons.1 hm with h | h
              · exact hne h.symm
              · have := hl'.1 c h; omega
            rw [List.count_cons (l := r)]
            by_cases hk : c = k
            · subst hk
              simp [h0]
            · simp [hk]

theorem diffLines_empty_iff (l : List Key) : ∀ r : List Key, diffLines l r = [] ↔ l = r ∨ (∃ k, l = r ++ [k]) ∨ (∃ k, r = l ++ [k]) := by
  induction l with
  | nil =>
    intro r
    rw [diffLines_nil]
    match r with
    | [] => simp
    | [x] => simp
    | x :: y :: r => simp
  | cons a l ih =>
    intro r
    cases r with
    | nil => rw [diffLines_cons_nil]; simp
    | cons c r =>
      rw [diffLines_cons]
      split
      · rename_i h
        subst h
        rw [ih]
        simp
      · rename_i h
        split <;> simp [h, Ne.symm h]

/-! ## Auxiliary: keys and counts -/

theorem keys_eq (crc : List U8 → U32) (ps : List Packet) (hw : ∀ p ∈ ps, p.WellFormed) : keys crc ps = .ret (ps.map (packetKey crc)) := by
  induction ps with
  | nil => rfl
  | cons p ps ih =>
    have h6 := (wellFormed_regular (hw p (by simp))).1
    rw [keys, ih (fun q hq => hw q (by simp [hq]))]
    have : key crc p = .ret (packetKey crc p) := by
      unfold key
      rw [if_neg (by simpa [PrimaryHeader.LEN] using h6)]
      rfl
    rw [this]
    rfl

theorem counts_spec (l r : List Packet) :
    (counts l r).keys.Nodup ∧ (∀ a, ((counts l r).get? a).getD (0, 0) = (apidCount l a, apidCount r a)) ∧
      ∀ a, a ∈ (counts l r).keys ↔ apidCount l a ≠ 0 ∨ apidCount r a ≠ 0 := by
  have hl : ∀ (l : List Packet) (m : HMap U16 (Nat × Nat)) (f g : U16 → Nat), m.keys.Nodup → (∀ a, (m.get? a).getD (0, 0) = (f a, g a)) →
      (∀ a, a ∈ m.keys ↔ f a ≠ 0 ∨ g a ≠ 0) →
      (l.foldl countLeft m).keys.Nodup ∧ (∀ a, ((l.foldl countLeft m).get? a).getD (0, 0) = (f a + apidCount l a, g a)) ∧
        ∀ a, a ∈ (l.foldl countLeft m).keys ↔ f a + apidCount l a ≠ 0 ∨ g a ≠ 0 := by
    intro l
    induction l with
    | nil => intro m f g h1 h2 h3; exact ⟨h1, h2, h3⟩
    | cons p l ih =>
      intro m f g h1 h2 h3
      obtain ⟨k1, k2, k3⟩ := ih (countLeft m p) (fun a => f a + if p.header.apid = a then 1 else 0) g
        (HMap.nodup_insert _ _ _ h1)
        (by
          intro a
          unfold countLeft
          rw [HMap.get?_insert]
          by_cases h : a = p.header.apid
          · subst h; simp [h2]
          · simp [h, Ne.symm h, h2])
        (by
          intro a
          unfold countLeft
          rw [HMap.keys_insert]
          by_cases h : a = p.header.apid
          · subst h; simp
            split <;> simp_all
          · split <;> simp [h, Ne.symm h, h3])
      have hc : ∀ a, apidCount (p :: l) a = (if p.header.apid = a then 1 else 0) + apidCount l a := by
        intro a
        unfold apidCount
        rw [List.countP_cons]
        simp only [beq_iff_eq]
        omega
      refine ⟨k1, ?_, ?_⟩
      · intro a
        rw [List.foldl_cons, k2, hc]
        simp only [Nat.add_assoc]
      · intro a
        rw [List.foldl_cons, k3, hc]
        simp only [Nat.add_assoc]
  have hr : ∀ (l : List Packet) (m : HMap U16 (Nat × Nat)) (f g : U16 → Nat), m.keys.Nodup → (∀ a, (m.get? a).getD (0, 0) = (f a, g a)) →
      (∀ a, a ∈ m.keys ↔ f a ≠ 0 ∨ g a ≠ 0) →
      (l.foldl countRight m).keys.Nodup ∧ (∀ a, ((l.foldl countRight m).get? a).getD (0, 0) = (f a, g a + apidCount l a)) ∧
        ∀ a, a ∈ (l.foldl countRight m).keys ↔ f a ≠ 0 ∨ g a + apidCount l a ≠ 0 := by
    intro l
    induction l with
    | nil => intro m f g h1 h2 h3; exact ⟨h1, h2, h3⟩
    | cons p l ih =>
      intro m f g h1 h2 h3
      obtain ⟨k1, k2, k3⟩ := ih (countRight m p) f (fun a => g a + if p.header.apid = a then 1 else 0)
        (HMap.nodup_insert _ _ _ h1)
        (by
          intro a
          unfold countRight
          rw [HMap.get?_insert]
          by_cases h : a = p.header.apid
          · subst h; simp [h2]
          · simp [h, Ne.symm h, h2])
        (by
          intro a
          unfold countRight
          rw [HMap.keys_insert]
          by_cases h : a = p.header.apid
          · subst h; simp
            split <;> simp_all
          · split <;> simp [h, Ne.symm h, h3])
      have hc : ∀ a, apidCount (p :: l) a = (if p.header.apid = a then 1 else 0) + apidCount l a := by
        intro a
        unfold apidCount
        rw [List.countP_cons]
        simp only [beq_iff_eq]
        omega
      refine ⟨k1, ?_, ?_⟩
      · intro a
        rw [List.foldl_cons, k2, hc]
        simp only [Nat.add_assoc]
      · intro a
        rw [List.foldl_cons, k3, hc]
        simp only [Nat.add_assoc]
  obtain ⟨a1, a2, a3⟩ := hl l [] (fun _ => 0) (fun _ => 0) (by simp [HMap.keys]) (by simp [HMap.get?]) (by simp [HMap.keys])
  obtain ⟨b1, b2, b3⟩ := hr r (l.foldl countLeft []) (fun a => apidCount l a) (fun _ => 0) a1 (by simpa using a2) (by simpa using a3)
  exact ⟨b1, by simpa [counts] using b2, by simpa [counts] using b3⟩

theorem table_spec (l r : List Packet) :
    (table (counts l r)).Pairwise (fun x y => x.1 < y.1) ∧
      ∀ a x y, (a, x, y) ∈ table (counts l r) ↔ x = apidCount l a ∧ y = apidCount r a ∧ x ≠ y := by
  obtain ⟨h1, h2, h3⟩ := counts_spec l r
  have hp := List.mergeSort_perm (counts l r).keys (fun a b => decide (a ≤ b))
  have hsort : ((counts l r).keys.mergeSort (· ≤ ·)).Pairwise (· < ·) := by
    have a1 := List.pairwise_mergeSort (le := fun a b : U16 => decide (a ≤ b))
      (fun a b c h k => by simp only [decide_eq_true_eq, BitVec.le_def] at *; omega)
      (fun a b => by simp only [Bool.or_eq_true, decide_eq_true_eq, BitVec.le_def]; omega) (counts l r).keys
    have a2 : ((counts l r).keys.mergeSort (fun a b => decide (a ≤ b))).Nodup := hp.nodup_iff.2 h1
    refine a1.imp₂ ?_ a2
    intro a b h hne
    have h : a ≤ b := by simpa using h
    rw [BitVec.le_def] at h
    rw [BitVec.lt_def]
    have : a.toNat ≠ b.toNat := fun e => hne (BitVec.eq_of_toNat_eq e)
    omega
  unfold table
  constructor
  · apply List.Pairwise.filter
    rw [List.pairwise_map]
    exact hsort
  · intro a x y
    rw [List.mem_filter]
    simp only [List.mem_map, Prod.mk.injEq, decide_eq_true_eq]
    constructor
    · rintro ⟨⟨b, hb, rfl, hv⟩, hne⟩
      rw [h2] at hv
      cases hv
      exact ⟨rfl, rfl, hne⟩
    · rintro ⟨rfl, rfl, hne⟩
      refine ⟨⟨a, ?_, rfl, h2 a⟩, hne⟩
      rw [hp.mem_iff, h3]
      omega

/-! ## C54 -/

/-- `diff` of two readable files whose packets are `ps` and `qs` has exactly one result. -/
theorem C54_total (crc : List U8 → U32) (f g : MFile) (ps qs : List Packet) (hp : Decodes f.reader ps) (hq : Decodes g.reader qs) (sc : Bool)
    (res : DResult) : Runs crc (some f) (some g) sc res ↔ res = compare crc ps qs sc := by
  obtain ⟨s, hp⟩ := hp
  obtain ⟨t, hq⟩ := hq
  constructor
  · intro h
    cases h with
    | noLeft h => cases h
    | leftPanics h k => cases h; exact absurd (k.unique hp).2 (by simp)
    | noRight _ _ h => cases h
    | rightPanics _ _ h k => cases h; exact absurd (k.unique hq).2 (by simp)
    | compared h1 k1 h2 k2 =>
      cases h1
      cases h2
      obtain ⟨rfl, _⟩ := k1.unique hp
      obtain ⟨rfl, _⟩ := k2.unique hq
      rw [Merger.oks_map_ok, Merger.oks_map_ok]
  · rintro rfl
    have := Runs.compared (crc := crc) (showCounts := sc) rfl hp rfl hq
    rwa [Merger.oks_map_ok, Merger.oks_map_ok] at this

theorem compare_eq (crc : List U8 → U32) (ps qs : List Packet) (hp : ∀ p ∈ ps, p.WellFormed) (hq : ∀ p ∈ qs, p.WellFormed) (sc : Bool) :
    compare crc ps qs sc =
      if ps = [] ∧ qs = [] then .noPackets
      else if diffLines (sortKeys (ps.map (packetKey crc))) (sortKeys (qs.map (packetKey crc))) = [] then
        .same (if sc then some (table (counts ps qs)) else none)
      else .differ (if sc then some (table (counts ps qs)) else none) (diffLines (sortKeys (ps.map (packetKey crc))) (sortKeys (qs.map (packetKey crc)))) := by
  have he : ∀ l : List Packet, (sortKeys (l.map (packetKey crc))).isEmpty = true ↔ l = [] := by
    intro l
    rw [List.isEmpty_iff, ← List.length_eq_zero_iff, (sortKeys_perm _).length_eq, List.length_map, List.length_eq_zero_iff]
  unfold Diff.compare
  rw [keys_eq crc ps hp, keys_eq crc qs hq]
  simp only [Bool.and_eq_true]
  by_cases hz : ps = [] ∧ qs = []
  · rw [if_pos hz, if_pos ⟨(he _).2 hz.1, (he _).2 hz.2⟩]
  · rw [if_neg hz, if_neg (fun h => hz ⟨(he _).1 h.1, (he _).1 h.2⟩)]
    show (if (diffLines _ _).length ≠ 0 then _ else _) = _
    by_cases h : diffLines (sortKeys (ps.map (packetKey crc))) (sortKeys (qs.map (packetKey crc))) = []
    · rw [if_pos h, h]; rfl
    · rw [if_neg h, if_pos (by rwa [ne_eq, List.length_eq_zero_iff])]
      rfl

/-- `diff` succeeds iff the files hold the same multiset of keys, of at least one packet. -/
def C54_full : Prop := ∀ (crc : List U8 → U32) (f g : MFile) (ps qs : List Packet) (sc : Bool) (res : DResult),
  f.reader.Delivers f.content → g.reader.Delivers g.content → Decodes f.reader ps → Decodes g.reader qs → Runs crc (some f) (some g) sc res →
  ((∃ t, res = .same t) ↔ ps ≠ [] ∧ (ps.map (packetKey crc)).Perm (qs.map (packetKey crc)))

/-- When `diff` really succeeds: also if one file has one packet more, with a key not below any other key. -/
theorem C54_partial (crc : List U8 → U32) (f g : MFile) (ps qs : List Packet) (sc : Bool) (res : DResult)
    (hf : f.reader.Delivers f.content) (hg : g.reader.Delivers g.content) (hp : Decodes f.reader ps) (hq : Decodes g.reader qs)
    (h : Runs crc (some f) (some g) sc res) :
    (∃ t, res = .same t) ↔ (ps ≠ [] ∨ qs ≠ []) ∧
      ((ps.map (packetKey crc)).Perm (qs.map (packetKey crc)) ∨
        (∃ k, Greatest k (qs.map (packetKey crc)) ∧ (ps.map (packetKey crc)).Perm (k :: qs.map (packetKey crc))) ∨
        (∃ k, Greatest k (ps.map (packetKey crc)) ∧ (qs.map (packetKey crc)).Perm (k :: ps.map (packetKey crc)))) := by
  rw [(C54_total crc f g ps qs hp hq sc res).1 h, compare_eq crc ps qs (decodes_wellFormed hf hp) (decodes_wellFormed hg hq)]
  have one : ∀ L R : List Key, (∃ k, sortKeys L = sortKeys R ++ [k]) ↔ ∃ k, Greatest k R ∧ L.Perm (k :: R) := by
    intro L R
    refine exists_congr fun k => ?_
    rw [greatest_iff]
    constructor
    · intro e
      constructor
      · intro x hx
        have ha := sortKeys_asc L
        rw [e] at ha
        exact (List.pairwise_append.1 ha).2.2 x ((sortKeys_perm R).mem_iff.2 hx) k (by simp)
      · have : (sortKeys L).Perm (k :: R) := by
          rw [e]
          exact ((sortKeys_perm R).append_right [k]).trans (List.perm_append_singleton k R)
        exact (sortKeys_perm L).symm.trans this
    · rintro ⟨hk, hperm⟩
      have ha : Asc (sortKeys R ++ [k]) := by
        refine List.pairwise_append.2 ⟨sortKeys_asc R, by simp, ?_⟩
        intro a hm b hb
        rw [List.mem_singleton.1 hb]
        exact hk a ((sortKeys_perm R).mem_iff.1 hm)
      have hpp : (sortKeys L).Perm (sortKeys R ++ [k]) :=
        ((sortKeys_perm L).trans hperm).trans (((sortKeys_perm R).append_right [k]).trans (List.perm_append_singleton k R)).symm
      exact hpp.eq_of_pairwise (fun a b _ _ h1 h2 => key_val_inj (Nat.le_antisymm h1 h2)) (sortKeys_asc L) ha
  have same : ∀ L R : List Key, sortKeys L = sortKeys R ↔ L.Perm R := by
    intro L R
    constructor
    · intro e
      exact (sortKeys_perm L).symm.trans (e ▸ sortKeys_perm R)
    · intro hperm
      exact (((sortKeys_perm L).trans hperm).trans (sortKeys_perm R).symm).eq_of_pairwise
        (fun a b _ _ h1 h2 => key_val_inj (Nat.le_antisymm h1 h2)) (sortKeys_asc L) (sortKeys_asc R)
  by_cases hne : ps = [] ∧ qs = []
  · rw [if_pos hne]
    simp [hne.1, hne.2]
  · rw [if_neg hne]
    have hne' : ps ≠ [] ∨ qs ≠ [] := by
      by_cases h1 : ps = []
      · exact .inr fun h2 => hne ⟨h1, h2⟩
      · exact .inl h1
    rw [← same, ← one, ← one, ← diffLines_empty_iff]
    by_cases hd : diffLines (sortKeys (ps.map (packetKey crc))) (sortKeys (qs.map (packetKey crc))) = []
    · rw [if_pos hd]; simp [hne', hd]
    · rw [if_neg hd]; simp [hd]

/-- Files with the same packets in any order compare as equal. -/
theorem C54_no_false_alarm (crc : List U8 → U32) (f g : MFile) (ps qs : List Packet) (sc : Bool) (res : DResult)
    (hf : f.reader.Delivers f.content) (hg : g.reader.Delivers g.content) (hp : Decodes f.reader ps) (hq : Decodes g.reader qs)
    (h : Runs crc (some f) (some g) sc res) (hne : ps ≠ []) (hs : (ps.map (packetKey crc)).Perm (qs.map (packetKey crc))) : ∃ t, res = .same t :=
  (C54_partial crc f g ps qs sc res hf hg hp hq h).2 ⟨.inl hne, .inl hs⟩

/-- If `diff` fails on two files with packets, every line stands for a key one file has more often than the other, as many lines as it has it more
often, except that one line in all may be left out. The error tells the number of lines. -/
theorem C54_lines (crc : List U8 → U32) (f g : MFile) (ps qs : List Packet) (sc : Bool) (t : Option (List (U16 × Nat × Nat))) (lines : List Line)
    (hf : f.reader.Delivers f.content) (hg : g.reader.Delivers g.content) (hp : Decodes f.reader ps) (hq : Decodes g.reader qs)
    (h : Runs crc (some f) (some g) sc (.differ t lines)) :
    lines ≠ [] ∧ ∃ omitted : List Line, omitted.length ≤ 1 ∧ ∀ k,
      (lines ++ omitted).count (.left k) = (ps.map (packetKey crc)).count k - (qs.map (packetKey crc)).count k ∧
      (lines ++ omitted).count (.right k) = (qs.map (packetKey crc)).count k - (ps.map (packetKey crc)).count k := by
  have e := (C54_total crc f g ps qs hp hq sc _).1 h
  rw [compare_eq crc ps qs (decodes_wellFormed hf hp) (decodes_wellFormed hg hq)] at e
  split at e
  · cases e
  · split at e
    · cases e
    · rename_i hd
      cases e
      refine ⟨hd, ?_⟩
      obtain ⟨m, h1, h2⟩ := diffLines_spec _ (sortKeys (ps.map (packetKey crc))) (sortKeys (qs.map (packetKey crc))) (Nat.le_refl _)
        (sortKeys_asc _) (sortKeys_asc _)
      refine ⟨m, h1, fun k => ?_⟩
      rw [(h2 k).1, (h2 k).2, (sortKeys_perm _).count_eq, (sortKeys_perm _).count_eq]
      exact ⟨rfl, rfl⟩

/-- The table of counts (printed on request): the APIDs whose counts differ, ascending, each once, with their counts. -/
theorem C54_table (crc : List U8 → U32) (f g : MFile) (ps qs : List Packet) (sc : Bool) (t : Option (List (U16 × Nat × Nat))) (res : DResult)
    (hf : f.reader.Delivers f.content) (hg : g.reader.Delivers g.content) (hp : Decodes f.reader ps) (hq : Decodes g.reader qs)
    (h : Runs crc (some f) (some g) sc res) (ht : res = .same t ∨ ∃ lines, res = .differ t lines) :
    (sc = false → t = none) ∧ (sc = true → ∃ rows, t = some rows ∧ rows.Pairwise (fun x y => x.1 < y.1) ∧
      ∀ a x y, (a, x, y) ∈ rows ↔ x = apidCount ps a ∧ y = apidCount qs a ∧ x ≠ y) := by
  have e := (C54_total crc f g ps qs hp hq sc _).1 h
  rw [compare_eq crc ps qs (decodes_wellFormed hf hp) (decodes_wellFormed hg hq)] at e
  have et : t = if sc then some (table (counts ps qs)) else none := by
    split at e
    · rcases ht with ht | ⟨_, ht⟩ <;> rw [ht] at e <;> cases e
    · split at e <;> rcases ht with ht | ⟨_, ht⟩ <;> rw [ht] at e <;> cases e <;> rfl
  subst et
  constructor
  · rintro rfl; rfl
  · rintro rfl
    exact ⟨_, rfl, table_spec ps qs⟩

/-- If neither file has a packet, `diff` fails. -/
theorem C54_no_packets (crc : List U8 → U32) (f g : MFile) (sc : Bool) (res : DResult)
    (hp : Decodes f.reader []) (hq : Decodes g.reader []) (h : Runs crc (some f) (some g) sc res) : res = .noPackets := by
  rw [(C54_total crc f g [] [] hp hq sc _).1 h, compare_eq crc [] [] (by simp) (by simp)]
  simp

/-- If decoding one of the files panics (C03), so does `diff`. -/
theorem C54_panic (crc : List U8 → U32) (f g : MFile) (items gitems : List (Except Error Packet)) (e e' : Option PacketDecoder) (sc : Bool) (res : DResult)
    (hp : Collects PacketDecoder.next (PacketDecoder.new f.reader) items e) (hq : Collects PacketDecoder.next (PacketDecoder.new g.reader) gitems e')
    (hn : e = none ∨ e' = none) : Runs crc (some f) (some g) sc res ↔ res = .panic := by
  constructor
  · intro h
    cases h with
    | noLeft h => cases h
    | leftPanics h k => rfl
    | noRight _ _ h => cases h
    | rightPanics _ _ h k => rfl
    | compared h1 k1 h2 k2 =>
      cases h1
      cases h2
      rcases hn with rfl | rfl
      · exact absurd (k1.unique hp).2 (by simp)
      · exact absurd (k2.unique hq).2 (by simp)
  · rintro rfl
    cases e with
    | none => exact .leftPanics rfl hp
    | some s =>
      rcases hn with h | rfl
      · cases h
      · exact .rightPanics rfl hp rfl hq

/-! Concrete: a file with two packets and one with the first of them. -/
namespace DiffEx

def both : MFile := ⟨FilterEx.stream, Reader.ofBytes FilterEx.stream⟩
def one : MFile := ⟨FilterEx.early, Reader.ofBytes FilterEx.early⟩
def crc0 : List U8 → U32 := fun _ => 0#32

theorem delivers1 : one.reader.Delivers one.content := by
  refine ⟨?_, by simp [evBytes, Ev.bytes, Reader.ofBytes, one], rfl⟩
  intro e he
  simp only [one, Reader.ofBytes, List.mem_cons, List.not_mem_nil, or_false] at he
  subst he
  exact .inl ⟨FilterEx.early, by decide, rfl⟩

theorem decodes1 : Decodes one.reader [FilterEx.earlyPkt 0] := ⟨_, .step rfl (.done rfl)⟩

/-- The hypotheses of `C54_partial` hold: the second packet of the left file goes unnoticed. -/
example (c : List U8 → U32) (res : DResult) (h : Runs c (some both) (some one) false res) : ∃ t, res = .same t :=
  (C54_partial c both one _ _ false res FilterEx.delivers delivers1 FilterEx.decodes decodes1 h).2
    ⟨.inl (by simp), .inr (.inl ⟨packetKey c (FilterEx.latePkt 14), by
      intro x hx
      simp only [List.map_cons, List.map_nil, List.mem_singleton] at hx
      subst hx
      exact .inl (show (1#16) < 2#16 by decide), List.Perm.swap _ _ _⟩)⟩

end DiffEx

/-- One more packet of a higher APID in the left file goes unnoticed. -/
theorem C54_violated : ¬ C54_full := by
  intro h
  have hr := (C54_total DiffEx.crc0 DiffEx.both DiffEx.one _ _ FilterEx.decodes DiffEx.decodes1 false _).2 rfl
  have h1 := h DiffEx.crc0 DiffEx.both DiffEx.one _ _ false _ FilterEx.delivers DiffEx.delivers1 FilterEx.decodes DiffEx.decodes1 hr
  have h2 := (C54_partial DiffEx.crc0 DiffEx.both DiffEx.one _ _ false _ FilterEx.delivers DiffEx.delivers1 FilterEx.decodes DiffEx.decodes1 hr).2
    ⟨.inl (by simp), .inr (.inl ⟨packetKey DiffEx.crc0 (FilterEx.latePkt 14), by
      intro x hx
      simp only [List.map_cons, List.map_nil, List.mem_singleton] at hx
      subst hx
      exact .inl (show (1#16) < 2#16 by decide), List.Perm.swap _ _ _⟩)⟩
  have := (h1.1 h2).2.length_eq
  simp at this

end Ccsds
