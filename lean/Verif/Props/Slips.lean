import Verif.Props.BitErrors
/-!
# C112: bits lost from or inserted into a recording of CADUs
-/
namespace Ccsds
open Spec Pipeline

/-- The bits of CADUs recorded one after the other: every block behind a marker. -/
def caduBits (asm : List U8) (ds : List (List U8)) : List Bool := ds.flatMap fun d => bits asm ++ bits d

theorem caduBits_length {asm : List U8} {len : Nat} : ∀ {ds : List (List U8)}, (∀ d ∈ ds, d.length = len) →
    (caduBits asm ds).length = ds.length * (8 * asm.length + 8 * len) := by
  intro ds
  induction ds with
  | nil => intro _; rw [List.length_nil, Nat.zero_mul]; rfl
  | cons d ds ih =>
    intro h
    have := ih fun x hx => h x (List.mem_cons_of_mem _ hx)
    have hd := h d (List.mem_cons_self ..)
    show (bits asm ++ bits d ++ caduBits asm ds).length = _
    rw [List.length_append, List.length_append, this, bits_length, bits_length, hd, List.length_cons, Nat.add_mul]
    omega

theorem caduBits_drop {asm : List U8} {len : Nat} : ∀ {ds : List (List U8)} (k : Nat), (∀ d ∈ ds, d.length = len) →
    (caduBits asm ds).drop (k * (8 * asm.length + 8 * len)) = caduBits asm (ds.drop k) := by
  intro ds
  induction ds with
  | nil => intro k _; simp [caduBits]
  | cons d ds ih =>
    intro k h
    cases k with
    | zero => rw [Nat.zero_mul]; rfl
    | succ k =>
      have hd := h d (List.mem_cons_self ..)
      show (bits asm ++ bits d ++ caduBits asm ds).drop _ = _
      rw [List.drop_append, List.drop_eq_nil_of_le (by simp only [List.length_append, bits_length, hd, Nat.add_mul]; omega), List.nil_append, List.drop_succ_cons,
        ← ih k fun x hx => h x (List.mem_cons_of_mem _ hx)]
      congr 1
      simp only [List.length_append, bits_length, hd, Nat.add_mul]
      omega

/-- The marker, then the block, of the `k`-th CADU of a recording in a stream. -/
theorem cadu_at {asm : List U8} {len : Nat} {x w : List Bool} {ds : List (List U8)} (h : ∀ d ∈ ds, d.length = len) {k : Nat} {d : List U8} (hk : ds[k]? = some d) :
    ∃ y, (x ++ caduBits asm ds ++ w).drop (x.length + k * (8 * asm.length + 8 * len)) = bits asm ++ (bits d ++ y) := by
  have hlt : k < ds.length := (List.getElem?_eq_some_iff.1 hk).1
  refine ⟨caduBits asm (ds.drop (k + 1)) ++ w, ?_⟩
  have hle : k * (8 * asm.length + 8 * len) ≤ (caduBits asm ds).length := by
    rw [caduBits_length h]; exact Nat.mul_le_mul_right _ (by omega)
  rw [List.append_assoc, List.drop_append, List.drop_eq_nil_of_le (by omega), List.nil_append, Nat.add_sub_cancel_left,
    List.drop_append_of_le_length hle, caduBits_drop k h]
  rw [List.getElem?_eq_some_iff] at hk
  obtain ⟨h1, rfl⟩ := hk
  rw [← List.getElem_cons_drop h1]
  simp only [caduBits, List.flatMap_cons, List.append_assoc]

/-- Where the markers follow each other without a gap the synchronizer visits one after the other. -/
theorem markers_lockstep {m s : List Bool} {skip : Nat} : ∀ (K a : Nat) {ps : List Nat}, Markers m s skip a ps → (∀ k, k < K → Occurs m s (a + k * (m.length + skip))) →
    ∃ qs, ps = (List.range K).map (fun k => a + k * (m.length + skip)) ++ qs ∧ Markers m s skip (a + K * (m.length + skip)) qs := by
  intro K
  induction K with
  | zero => intro a ps h _; exact ⟨ps, rfl, by rw [Nat.zero_mul]; exact h⟩
  | succ K ih =>
    intro a ps h ho
    have h0 := ho 0 (by omega)
    rw [Nat.zero_mul, Nat.add_zero] at h0
    cases h with
    | none hn => exact absurd h0 (hn a (Nat.le_refl _))
    | @cons _ i ps hf hr =>
      have : i = a := Nat.le_antisymm (Nat.le_of_not_lt fun hlt => hf.2.2 a (Nat.le_refl _) hlt h0) hf.1
      subst this
      rw [show i + m.length + skip = i + (m.length + skip) by omega] at hr
      obtain ⟨qs, rfl, hq⟩ := ih _ hr fun k hk => by
        have := ho (k + 1) (by omega)
        rw [Nat.add_mul, Nat.one_mul] at this
        rw [show i + (m.length + skip) + k * (m.length + skip) = i + (k * (m.length + skip) + (m.length + skip)) by omega]
        exact this
      refine ⟨qs, ?_, ?_⟩
      · rw [List.range_succ_eq_map, List.map_cons, List.map_map, Nat.zero_mul, Nat.add_zero, List.cons_append]
        congr 2
        refine List.map_congr_left fun k _ => ?_
        simp only [Function.comp, Nat.succ_eq_add_one, Nat.add_mul, Nat.one_mul]
        omega
      · rw [Nat.add_mul, Nat.one_mul, show i + (K * (m.length + skip) + (m.length + skip)) = i + (m.length + skip) + K * (m.length + skip) by omega]
        exact hq

theorem pairwise_room {c : Nat} : ∀ {P : List Nat} {a b : Nat}, (∀ p ∈ P, a ≤ p ∧ p < b) → P.Pairwise (fun p q => p + c ≤ q) → a ≤ b → P.length * c < b - a + c ∨ P = [] := by
  intro P
  induction P with
  | nil => intro a b _ _ _; exact .inr rfl
  | cons p P ih =>
    intro a b h hp hab
    left
    rw [List.pairwise_cons] at hp
    have h1 := h p (List.mem_cons_self ..)
    rw [List.length_cons, Nat.add_mul, Nat.one_mul]
    cases P with
    | nil => simp only [List.length_nil, Nat.zero_mul]; omega
    | cons q P =>
      have hq := hp.1 q (List.mem_cons_self ..)
      have hq' := h q (List.mem_cons_of_mem _ (List.mem_cons_self ..))
      rcases ih (a := p + c) (b := b) (fun x hx => ⟨hp.1 x hx, (h x (List.mem_cons_of_mem _ hx)).2⟩) hp.2 (by omega) with h2 | h2
      · omega
      · cases h2

/-- From anywhere before the recording the synchronizer reaches its second CADU at the latest, and then visits all of it. -/
theorem markers_resync {m s : List Bool} {skip a X K : Nat} {ps : List Nat} (hc : 0 < m.length + skip) (h : Markers m s skip a ps) (ha : a ≤ X)
    (hocc : ∀ k, k < K → Occurs m s (X + k * (m.length + skip)))
    (hfree : ∀ i, Occurs m s (X + i) → i < K * (m.length + skip) → i % (m.length + skip) = 0) :
    ∃ (k : Nat) (P Q : List Nat), k ≤ 1 ∧ ps = P ++ (List.range (K - k)).map (fun j => X + (k + j) * (m.length + skip)) ++ Q ∧
      (∀ p ∈ P, a ≤ p ∧ p < X) ∧ P.Pairwise (fun p q => p + m.length + skip ≤ q) ∧ (∀ q ∈ Q, X + K * (m.length + skip) ≤ q ∧ Occurs m s q) ∧
      ((∀ i, a ≤ i → i < X → Occurs m s i → i + (m.length + skip) ≤ X) → k = 0) := by
  obtain ⟨f1, f2, f3⟩ := markers_facts h
  generalize hcc : m.length + skip = c at *
  have e : ∀ p, p + m.length + skip = p + c := fun p => by omega
  -- whether a block from before reaches into the recording
  obtain ⟨k, hk1, hk2, hk3⟩ : ∃ k, k ≤ 1 ∧ (k = 0 → ∀ p ∈ ps, p < X → p + c ≤ X) ∧ (k = 1 → ∃ p ∈ ps, p < X ∧ X < p + c) := by
    by_cases hh : ∀ p ∈ ps, p < X → p + c ≤ X
    · exact ⟨0, by omega, fun _ => hh, fun h => by omega⟩
    · refine ⟨1, by omega, fun h => by omega, fun _ => ?_⟩
      refine Decidable.byContradiction fun hn => hh fun p hp hpX => ?_
      refine Nat.le_of_not_lt fun hlt => hn ⟨p, hp, hpX, hlt⟩
  let P := ps.filter (fun p => p < X)
  let Q := ps.filter (fun p => X + K * c ≤ p)
  have hP : ∀ p, p ∈ P ↔ p ∈ ps ∧ p < X := fun p => by simp [P]
  have hQ : ∀ p, p ∈ Q ↔ p ∈ ps ∧ X + K * c ≤ p := fun p => by simp [Q]
  refine ⟨k, P, Q, hk1, ?_, fun p hp => ⟨(f1 p ((hP p).1 hp).1).1, ((hP p).1 hp).2⟩, f2.sublist List.filter_sublist, fun q hq => ⟨((hQ q).1 hq).2, (f1 q ((hQ q).1 hq).1).2⟩,
    fun hno => ?_⟩
  · refine Sync.markers_unique h (markers_of ?_ ?_ ?_)
    · intro p hp
      rcases List.mem_append.1 hp with hp | hp
      · rcases List.mem_append.1 hp with hp | hp
        · exact f1 p ((hP p).1 hp).1
        · obtain ⟨j, hj, rfl⟩ := List.mem_map.1 hp
          rw [List.mem_range] at hj
          exact ⟨by omega, hocc _ (by omega)⟩
      · exact f1 p ((hQ p).1 hp).1
    · rw [List.pairwise_append, List.pairwise_append]
      refine ⟨⟨f2.sublist List.filter_sublist, ?_, fun p hp q hq => ?_⟩, f2.sublist List.filter_sublist, fun p hp q hq => ?_⟩
      · rw [List.pairwise_map, List.pairwise_iff_getElem]
        intro i j hi hj hij
        rw [List.getElem_range, List.getElem_range, e]
        have : (k + i + 1) * c ≤ (k + j) * c := Nat.mul_le_mul_right _ (by omega)
        rw [Nat.add_mul (k + i)] at this
        omega
      · obtain ⟨j, hj, rfl⟩ := List.mem_map.1 hq
        have hp := (hP p).1 hp
        rw [e]
        rcases Nat.eq_zero_or_pos k with h0 | h0
        · have := hk2 h0 p hp.1 hp.2
          omega
        · have : 1 * c ≤ (k + j) * c := Nat.mul_le_mul_right _ (by omega)
          omega
      · have hq := (hQ q).1 hq
        rw [e]
        rcases List.mem_append.1 hp with hp | hp
        · have hp := (hP p).1 hp
          rcases Nat.eq_zero_or_pos K with h0 | h0
          · -- both are among the markers visited
            obtain ⟨i, hi, rfl⟩ := List.getElem_of_mem hp.1
            obtain ⟨j, hj, rfl⟩ := List.getElem_of_mem hq.1
            rw [List.pairwise_iff_getElem] at f2
            have hpq : ps[i] < ps[j] := by omega
            rcases Nat.lt_trichotomy i j with h1 | h1 | h1
            · have := f2 i j hi hj h1; omega
            · subst h1; omega
            · have := f2 j i hj hi h1; omega
          · have : 1 * c ≤ K * c := Nat.mul_le_mul_right _ h0
            omega
        · obtain ⟨j, hj, rfl⟩ := List.mem_map.1 hp
          rw [List.mem_range] at hj
          have : (k + j + 1) * c ≤ K * c := Nat.mul_le_mul_right _ (by omega)
          rw [Nat.add_mul (k + j)] at this
          omega
    · intro i hi ho
      rcases Nat.lt_or_ge i X with hX | hX
      · obtain ⟨p, hp, h1, h2⟩ := f3 i hi ho
        exact ⟨p, List.mem_append.2 (.inl (List.mem_append.2 (.inl ((hP p).2 ⟨hp, by omega⟩)))), h1, h2⟩
      · obtain ⟨j, rfl⟩ : ∃ j, i = X + j := ⟨i - X, by omega⟩
        rcases Nat.lt_or_ge j (K * c) with hj | hj
        · have hm := hfree j ho hj
          obtain ⟨q, hdj, hjK⟩ : ∃ q, j = q * c ∧ q < K := ⟨j / c, by
            have := Nat.div_add_mod j c
            rw [hm, Nat.mul_comm] at this
            omega, (Nat.div_lt_iff_lt_mul hc).2 hj⟩
          rcases Nat.lt_or_ge q k with hlt | hge
          · obtain ⟨p, hp, h1, h2⟩ := hk3 (by omega)
            have h0 : q = 0 := by omega
            rw [h0, Nat.zero_mul] at hdj
            exact ⟨p, List.mem_append.2 (.inl (List.mem_append.2 (.inl ((hP p).2 ⟨hp, h1⟩)))), by omega, by omega⟩
          · refine ⟨X + j, List.mem_append.2 (.inl (List.mem_append.2 (.inr (List.mem_map.2 ⟨q - k, List.mem_range.2 (by omega), ?_⟩)))), by omega, by omega⟩
            rw [show k + (q - k) = q by omega, hdj]
        · obtain ⟨p, hp, h1, h2⟩ := f3 _ hi ho
          rcases Nat.lt_or_ge p X with hpX | hpX
          · exact ⟨p, List.mem_append.2 (.inl (List.mem_append.2 (.inl ((hP p).2 ⟨hp, hpX⟩)))), h1, h2⟩
          · rcases Nat.lt_or_ge p (X + K * c) with hpK | hpK
            · obtain ⟨l, rfl⟩ : ∃ l, p = X + l := ⟨p - X, by omega⟩
              exfalso
              have hl := hfree l (f1 _ hp).2 (by omega)
              have hdl : l = l / c * c := by
                have := Nat.div_add_mod l c
                rw [hl, Nat.mul_comm] at this
                omega
              have hlK : l / c < K := (Nat.div_lt_iff_lt_mul hc).2 (by omega)
              have : (l / c + 1) * c ≤ K * c := Nat.mul_le_mul_right _ hlK
              rw [Nat.add_mul] at this
              omega
            · exact ⟨p, List.mem_append.2 (.inr ((hQ p).2 ⟨hp, hpK⟩)), h1, h2⟩
  · rcases Nat.eq_zero_or_pos k with h0 | h0
    · exact h0
    · obtain ⟨p, hp, h1, h2⟩ := hk3 (by omega)
      have := hno p (f1 p hp).1 h1 (f1 p hp).2
      omega

/-- The data of an item. -/
def itemData (it : Except Error Block) : Except Error (List U8) := it.map (·.data)

theorem item_data_at {S asm : List U8} {len prev p : Nat} {it : Except Error Block} {d : List U8} {y : List Bool} (hasm : asm ≠ []) (h : Sync.ItemOK S asm.length len prev p it) (hd : d.length = len)
    (hs : (bits S).drop p = bits asm ++ (bits d ++ y)) : itemData it = .ok d := by
  have hl : p + 8 * asm.length + 8 * len ≤ 8 * S.length := by
    have := congrArg List.length hs
    rw [List.length_drop, List.length_append, List.length_append, bits_length, bits_length, bits_length, hd] at this
    have : 0 < asm.length := List.length_pos_iff.2 hasm
    omega
  unfold Sync.ItemOK at h
  rw [if_pos hl] at h
  obtain ⟨data, _, h2, rfl⟩ := h
  show Except.ok data = Except.ok d
  congr 1
  refine bits_inj ?_
  rw [h2, ← List.drop_drop, hs, List.drop_append, List.drop_eq_nil_of_le (by rw [bits_length]; omega), List.nil_append, bits_length, Nat.sub_self, List.drop_zero,
    List.take_append_of_le_length (by rw [bits_length]; omega), List.take_of_length_le (by rw [bits_length]; omega)]

/-- C112: between two recordings of CADUs, whose second contains the marker nowhere but at the beginning of its CADUs, lie any bits `z`: what is left of a CADU from which bits were lost
or to which bits were added, or anything else, of any length. All blocks of the first recording are handed out, then at most one block for every `8 * (asm.length + len)` bits begun in
between, then all blocks of the second but perhaps the first; that one too, if no marker in the bits between has its block reach into the second recording. -/
theorem C112_slip (r : Reader) (S asm : List U8) (len : Nat) (hr : Smooth r S) (hasm : asm ≠ []) (ds ds' : List (List U8)) (z w : List Bool)
    (hd : ∀ d ∈ ds, d.length = len) (hd' : ∀ d ∈ ds', d.length = len) (hS : bits S = caduBits asm ds ++ z ++ caduBits asm ds' ++ w)
    (hfree : ∀ i, i < (caduBits asm ds').length → Occurs (bits asm) (caduBits asm ds' ++ w) i → i % (8 * asm.length + 8 * len) = 0)
    (items : List (Except Error Block)) (e : Option Sync.Iter) (h : Collects Sync.next (Sync.iter r asm len) items e) :
    ∃ (k : Nat) (mid post : List (Except Error (List U8))), k ≤ 1 ∧ items.map itemData = ds.map .ok ++ mid ++ (ds'.drop k).map .ok ++ post ∧
      mid.length * (8 * asm.length + 8 * len) < z.length + (8 * asm.length + 8 * len) ∧
      ((∀ i, i < z.length → Occurs (bits asm) (z ++ caduBits asm ds' ++ w) i → i + (8 * asm.length + 8 * len) ≤ z.length) → k = 0) ∧
      ((∀ i, ¬ Occurs (bits asm) w i) → post = []) := by
  obtain ⟨i1, s1, ps, a1, a2, a3⟩ := Sync.run_iter r S asm hasm len hr
  obtain ⟨rfl, _⟩ := h.unique a1
  have hc : 0 < (bits asm).length + 8 * len := by
    have : 0 < asm.length := List.length_pos_iff.2 hasm
    rw [bits_length]; omega
  have e0 : (bits asm).length = 8 * asm.length := bits_length asm
  have l1 := caduBits_length (asm := asm) hd
  have l2 := caduBits_length (asm := asm) hd'
  rw [l2] at hfree
  -- the first recording
  have occ1 : ∀ k d, ds[k]? = some d → ∃ y, (bits S).drop (0 + k * ((bits asm).length + 8 * len)) = bits asm ++ (bits d ++ y) := by
    intro k d hk
    obtain ⟨y, hy⟩ := cadu_at (asm := asm) (x := []) (w := z ++ caduBits asm ds' ++ w) hd hk
    refine ⟨y, ?_⟩
    rw [hS, e0, ← hy]
    simp only [List.nil_append, List.length_nil, List.append_assoc]
  obtain ⟨qs, rfl, hq⟩ := markers_lockstep ds.length 0 a2 fun k hk => by
    obtain ⟨y, hy⟩ := occ1 k ds[k] (List.getElem?_eq_getElem hk)
    exact ⟨_, hy.symm⟩
  rw [e0] at hc occ1 hq a3
  -- the second one
  have occ2 : ∀ k d, ds'[k]? = some d → ∃ y, (bits S).drop (ds.length * (8 * asm.length + 8 * len) + z.length + k * (8 * asm.length + 8 * len)) = bits asm ++ (bits d ++ y) := by
    intro k d hk
    obtain ⟨y, hy⟩ := cadu_at (asm := asm) (x := caduBits asm ds ++ z) (w := w) hd' hk
    refine ⟨y, ?_⟩
    rw [hS, ← hy, List.length_append, l1]
  have tail : ∀ i, Occurs (bits asm) (bits S) (ds.length * (8 * asm.length + 8 * len) + z.length + i) ↔ Occurs (bits asm) (caduBits asm ds' ++ w) i := by
    intro i
    rw [hS, List.append_assoc, ← l1, ← List.length_append]
    exact occurs_right
  have tailz : ∀ i, Occurs (bits asm) (bits S) (ds.length * (8 * asm.length + 8 * len) + i) ↔ Occurs (bits asm) (z ++ caduBits asm ds' ++ w) i := by
    intro i
    rw [hS, List.append_assoc, List.append_assoc, ← l1]
    rw [show z ++ caduBits asm ds' ++ w = z ++ (caduBits asm ds' ++ w) by rw [List.append_assoc]]
    exact occurs_right
  obtain ⟨k, P, Q, hk, rfl, hP, hPw, hQ, hk0⟩ := markers_resync (X := ds.length * (8 * asm.length + 8 * len) + z.length) (K := ds'.length) (by rw [e0]; exact hc) hq (by omega)
    (fun k hk => by
      rw [e0]
      obtain ⟨y, hy⟩ := occ2 k ds'[k] (List.getElem?_eq_getElem hk)
      exact ⟨_, hy.symm⟩)
    (fun i ho hi => by rw [e0] at hi ⊢; exact hfree i hi ((tail i).1 ho))
  simp only [e0] at *
  generalize hcc : 8 * asm.length + 8 * len = c at *
  have hlen := Sync.itemsOK_length a3
  simp only [List.length_append, List.length_map, List.length_range] at hlen
  generalize hps : ((List.range ds.length).map fun k => 0 + k * c) ++ (P ++ ((List.range (ds'.length - k)).map fun j => ds.length * c + z.length + (k + j) * c) ++ Q) = ps at *
  refine ⟨k, ((items.map itemData).drop ds.length).take P.length, (items.map itemData).drop (ds.length + P.length + (ds'.length - k)), hk, ?_, ?_, fun hz => ?_, fun hw => ?_⟩
  · have h1 : (items.map itemData).take ds.length = ds.map .ok := by
      refine List.ext_getElem? fun i => ?_
      rcases Nat.lt_or_ge i ds.length with hi | hi
      · have hp : ps[i]? = some (0 + i * c) := by
          rw [← hps, List.getElem?_append_left (by simpa using hi), List.getElem?_map, List.getElem?_range hi]; rfl
        obtain ⟨it, g1, g2⟩ := Sync.itemsOK_get a3 hp
        obtain ⟨y, hy⟩ := occ1 i ds[i] (List.getElem?_eq_getElem hi)
        rw [List.getElem?_take_of_lt hi, List.getElem?_map, g1, List.getElem?_map, List.getElem?_eq_getElem hi]
        exact congrArg some (item_data_at hasm g2 (hd _ (List.getElem_mem hi)) hy)
      · rw [List.getElem?_eq_none (by rw [List.length_take]; omega), List.getElem?_eq_none (by rw [List.length_map]; exact hi)]
    have h2 : ((items.map itemData).drop (ds.length + P.length)).take (ds'.length - k) = (ds'.drop k).map .ok := by
      refine List.ext_getElem? fun i => ?_
      rcases Nat.lt_or_ge i (ds'.length - k) with hi | hi
      · have hi' : k + i < ds'.length := by omega
        have hp : ps[ds.length + P.length + i]? = some (ds.length * c + z.length + (k + i) * c) := by
          rw [← hps, List.getElem?_append_right (by simp; omega), List.append_assoc, List.getElem?_append_right (by simp; omega), List.getElem?_append_left (by simp; omega),
            List.getElem?_map, List.getElem?_range (by simp; omega)]
          simp only [List.length_map, List.length_range, Option.map_some]
          rw [show ds.length + P.length + i - ds.length - P.length = i by omega]
        obtain ⟨it, g1, g2⟩ := Sync.itemsOK_get a3 hp
        obtain ⟨y, hy⟩ := occ2 (k + i) ds'[k + i] (List.getElem?_eq_getElem hi')
        rw [List.getElem?_take_of_lt hi, List.getElem?_drop, List.getElem?_map, g1, List.getElem?_map, List.getElem?_drop, List.getElem?_eq_getElem hi']
        exact congrArg some (item_data_at hasm g2 (hd' _ (List.getElem_mem hi')) hy)
      · rw [List.getElem?_eq_none (by rw [List.length_take]; omega), List.getElem?_eq_none (by rw [List.length_map, List.length_drop]; exact hi)]
    rw [← h1, ← h2]
    generalize items.map itemData = L
    simp only [← List.drop_drop, List.append_assoc, List.take_append_drop]
  · have hPl : (((items.map itemData).drop ds.length).take P.length).length = P.length := by
      rw [List.length_take, List.length_drop, List.length_map]; omega
    rw [hPl]
    have hPw' : P.Pairwise (fun p q => p + c ≤ q) := hPw.imp fun {p q} h => by omega
    rcases pairwise_room (fun p hp => by have := hP p hp; exact ⟨by omega, this.2⟩) hPw' (show ds.length * c ≤ ds.length * c + z.length by omega) with h1 | h1
    · omega
    · rw [h1, List.length_nil, Nat.zero_mul]; omega
  · refine hk0 fun i h1 h2 ho => ?_
    obtain ⟨j, rfl⟩ : ∃ j, i = ds.length * c + j := ⟨i - ds.length * c, by omega⟩
    have := hz j (by omega) ((tailz j).1 ho)
    omega
  · have hQe : Q = [] := by
      cases Q with
      | nil => rfl
      | cons q Q =>
        exfalso
        obtain ⟨h1, h2⟩ := hQ q (List.mem_cons_self ..)
        obtain ⟨j, rfl⟩ : ∃ j, q = ds.length * c + z.length + (ds'.length * c + j) := ⟨q - (ds.length * c + z.length + ds'.length * c), by omega⟩
        refine hw j ?_
        have := (tail _).1 h2
        rw [← l2] at this
        exact occurs_right.1 this
    rw [hQe] at hlen
    simp only [List.length_nil] at hlen
    exact List.drop_eq_nil_of_le (by rw [List.length_map]; omega)

theorem map_itemData_oks : ∀ {items : List (Except Error Block)} {l : List (Except Error (List U8))}, items.map itemData = l →
    (oks items).map (·.data) = l.filterMap fun x => match x with | .ok d => some d | .error _ => none := by
  intro items
  induction items with
  | nil => rintro l rfl; rfl
  | cons x items ih =>
    rintro l rfl
    cases x with
    | ok b => exact congrArg (b.data :: ·) (ih rfl)
    | error e =>
      show (oks items).map (·.data) = (Except.error e :: items.map itemData).filterMap _
      rw [List.filterMap_cons]
      exact ih rfl

/-- What is sent for a frame: the frame, randomized if the receiver is to undo that (randomizing and derandomizing are the same, C31). -/
def sent (derand : Bool) (d : List U8) : List U8 := if derand then Pn.derandomize d else d

theorem sent_sent (derand : Bool) (d : List U8) : sent derand (sent derand d) = d := by
  cases derand
  · rfl
  · exact C31_involution d

theorem sent_length (derand : Bool) (d : List U8) : (sent derand d).length = d.length := by
  cases derand
  · rfl
  · exact C31_length d

theorem prep_sent (derand : Bool) (x : Block) : (prep derand x).data = sent derand x.data := by
  cases derand <;> rfl

/-- C112: the same for the frames of the pipeline. `mid` and `post` are the frames made of what lies between and behind the recordings. All frames are handed out if these have readable
headers too; if not, the output ends at the first that has not (C83), and otherwise only where the frame counter makes a build with overflow checks panic (C34). -/
theorem C112_pipeline (b : Build) (c : Config) (r : Reader) (S : List U8) (hr : Smooth r S) (ds ds' : List (List U8)) (z w : List Bool)
    (hd : ∀ d ∈ ds, d.length = c.blockLength ∧ ∃ h, VCDUHeader.decode d = some h) (hd' : ∀ d ∈ ds', d.length = c.blockLength ∧ ∃ h, VCDUHeader.decode d = some h)
    (hS : bits S = caduBits Sync.ASM (ds.map (sent c.derandomize)) ++ z ++ caduBits Sync.ASM (ds'.map (sent c.derandomize)) ++ w)
    (hfree : ∀ i, i < (caduBits Sync.ASM (ds'.map (sent c.derandomize))).length → Occurs (bits Sync.ASM) (caduBits Sync.ASM (ds'.map (sent c.derandomize)) ++ w) i →
      i % (32 + 8 * c.blockLength) = 0)
    (fs : List Frame) (ended : Bool) (h : Outputs b c r fs ended) :
    ∃ (k : Nat) (mid post : List (List U8)), k ≤ 1 ∧ mid.length * (32 + 8 * c.blockLength) < z.length + (32 + 8 * c.blockLength) ∧
      ((∀ i, i < z.length → Occurs (bits Sync.ASM) (z ++ caduBits Sync.ASM (ds'.map (sent c.derandomize)) ++ w) i → i + (32 + 8 * c.blockLength) ≤ z.length) → k = 0) ∧
      ((∀ i, ¬ Occurs (bits Sync.ASM) w i) → post = []) ∧
      fs.map (·.data) <+: ds ++ mid ++ ds'.drop k ++ post ∧
      (ended = true → ds <+: fs.map (·.data) ∧ ((∀ d ∈ mid ++ post, ∃ h, VCDUHeader.decode d = some h) → fs.map (·.data) = ds ++ mid ++ ds'.drop k ++ post)) := by
  obtain ⟨items, s, x, a1, a2, rfl⟩ := outputs_blocks hr h
  obtain ⟨k, mid, post, h1, h2, h3, h4, h5⟩ := C112_slip r S Sync.ASM c.blockLength hr (by simp [Sync.ASM]) (ds.map (sent c.derandomize)) (ds'.map (sent c.derandomize)) z w
    (by intro d hx; obtain ⟨y, hy, rfl⟩ := List.mem_map.1 hx; rw [sent_length]; exact (hd y hy).1)
    (by intro d hx; obtain ⟨y, hy, rfl⟩ := List.mem_map.1 hx; rw [sent_length]; exact (hd' y hy).1) hS hfree items _ a1
  rw [show 8 * Sync.ASM.length = 32 from rfl] at h3 h4
  have fm : ∀ l : List (List U8), (l.map (Except.ok (ε := Error))).filterMap (fun x => match x with | .ok d => some d | .error _ => none) = l := by
    intro l
    induction l with
    | nil => rfl
    | cons d l ih => exact congrArg (d :: ·) ih
  have ss : ∀ l : List (List U8), (l.map (sent c.derandomize)).map (sent c.derandomize) = l := by
    intro l
    rw [List.map_map]
    exact (List.map_congr_left fun d _ => sent_sent _ d).trans (List.map_id _)
  let ok? : Except Error (List U8) → Option (List U8) := fun x => match x with | .ok d => some d | .error _ => none
  have hblocks : ((oks items).map (prep c.derandomize)).map (·.data) = ds ++ (mid.filterMap ok?).map (sent c.derandomize) ++ ds'.drop k ++ (post.filterMap ok?).map (sent c.derandomize) := by
    rw [List.map_map, show ((fun x : Block => x.data) ∘ prep c.derandomize) = (sent c.derandomize ∘ fun x => x.data) from funext fun x => prep_sent _ x, ← List.map_map,
      map_itemData_oks h2, List.filterMap_append, List.filterMap_append, List.filterMap_append, fm, fm, List.map_append, List.map_append, List.map_append, ss, ← List.map_drop, ss]
  refine ⟨k, (mid.filterMap ok?).map (sent c.derandomize), (post.filterMap ok?).map (sent c.derandomize), h1, ?_, h4, fun hw => by rw [h5 hw]; rfl, ?_⟩
  · rw [List.length_map]
    have : (mid.filterMap ok?).length * (32 + 8 * c.blockLength) ≤ mid.length * (32 + 8 * c.blockLength) := Nat.mul_le_mul_right _ (List.length_filterMap_le _ _)
    omega
  rw [← hblocks]
  obtain ⟨fs', e', f1, f2, f3, f4⟩ := C35_frames b ((oks items).map (prep c.derandomize))
  obtain ⟨rfl, rfl⟩ := a2.unique f1
  generalize (oks items).map (prep c.derandomize) = blocks at *
  have hfs : fs.map (·.data) = (blocks.map (·.data)).take fs.length := by
    refine List.ext_getElem? fun i => ?_
    rcases Nat.lt_or_ge i fs.length with hi | hi
    · rw [List.getElem?_take_of_lt hi, List.getElem?_map, List.getElem?_map, List.getElem?_eq_getElem hi, List.getElem?_eq_getElem (by omega)]
      exact congrArg some (f3 i _ _ (List.getElem?_eq_getElem (by omega)) (List.getElem?_eq_getElem hi)).2.1
    · rw [List.getElem?_eq_none (by rw [List.length_map]; exact hi), List.getElem?_eq_none (by rw [List.length_take]; omega)]
  refine ⟨hfs ▸ List.take_prefix _ _, fun he => ?_⟩
  cases x with
  | none => cases he
  | some s' =>
    rcases f4 with ⟨f4, _⟩ | ⟨y, f4, f5, _⟩
    · rw [hfs, List.take_of_length_le (by rw [List.length_map]; omega)]
      exact ⟨⟨_, by rw [hblocks, List.append_assoc, List.append_assoc]⟩, fun _ => rfl⟩
    · have hy : (blocks.map (·.data))[fs.length]? = some y.data := by rw [List.getElem?_map, f4]; rfl
      have hnot : ∀ d, (∃ h, VCDUHeader.decode d = some h) → d ≠ y.data := by
        rintro d ⟨v, hv⟩ rfl
        rw [hv] at f5; cases f5
      constructor
      · rw [hfs, hblocks]
        have : ds.length ≤ fs.length := by
          refine Nat.le_of_not_lt fun hlt => ?_
          rw [hblocks, List.append_assoc, List.append_assoc, List.getElem?_append_left hlt, List.getElem?_eq_getElem hlt] at hy
          exact hnot _ (hd _ (List.getElem_mem hlt)).2 (Option.some.inj hy)
        rw [List.append_assoc, List.append_assoc]
        exact List.prefix_of_prefix_length_le (List.prefix_append _ _) (List.take_prefix _ _) (by rw [List.length_take, List.length_append]; omega)
      · intro hm
        exfalso
        have hmem := List.mem_of_getElem? hy
        rw [hblocks] at hmem
        rcases List.mem_append.1 hmem with h | h
        · rcases List.mem_append.1 h with h | h
          · rcases List.mem_append.1 h with h | h
            · exact hnot _ (hd _ h).2 rfl
            · exact hnot _ (hm _ (List.mem_append.2 (.inl h))) rfl
          · exact hnot _ (hd' _ (List.mem_of_mem_drop h)).2 rfl
        · exact hnot _ (hm _ (List.mem_append.2 (.inr h))) rfl

/-! ## Examples -/

/-- A recording with a two byte marker and blocks of two bytes: one CADU, one from which the last byte was lost, and two more. -/
def exSlip : List U8 := [0x1a, 0xcf, 1, 2, 0x1a, 0xcf, 9, 0x1a, 0xcf, 3, 4, 0x1a, 0xcf, 5, 6]

theorem exSlip_free : ∀ i, i < (caduBits [0x1a, 0xcf] [[3, 4], [5, 6]]).length → Occurs (bits [0x1a, 0xcf]) (caduBits [0x1a, 0xcf] [[3, 4], [5, 6]] ++ []) i →
    i % (8 * ([0x1a, 0xcf] : List U8).length + 8 * 2) = 0 := by
  have key : ∀ i < 64, (bits ([0x1a, 0xcf] : List U8)).isPrefixOf ((caduBits [0x1a, 0xcf] [[3, 4], [5, 6]] ++ []).drop i) = true → i % 32 = 0 := by decide +kernel
  intro i hi ho
  exact key i hi (List.isPrefixOf_iff_prefix.2 ho)

theorem exSlip_bits : bits exSlip = caduBits [0x1a, 0xcf] [[1, 2]] ++ bits [0x1a, 0xcf, 9] ++ caduBits [0x1a, 0xcf] [[3, 4], [5, 6]] ++ [] := by decide +kernel

theorem exSlip_markers : Markers (bits [0x1a, 0xcf]) (bits exSlip) (8 * 2) 0 [0, 32, 88] := by
  have key : ∀ i < 121, (bits ([0x1a, 0xcf] : List U8)).isPrefixOf ((bits exSlip).drop i) = true → i = 0 ∨ i = 32 ∨ i = 56 ∨ i = 88 := by decide +kernel
  have occ : ∀ i, i = 0 ∨ i = 32 ∨ i = 88 → (bits ([0x1a, 0xcf] : List U8)).isPrefixOf ((bits exSlip).drop i) = true := by
    rintro i (rfl | rfl | rfl) <;> decide +kernel
  have hl : (bits ([0x1a, 0xcf] : List U8)).length = 16 := by decide +kernel
  refine markers_of (fun p hp => ⟨Nat.zero_le _, List.isPrefixOf_iff_prefix.1 (occ p (by simpa using hp))⟩) ?_ fun i _ ho => ?_
  · rw [hl]; decide
  · have hlen := Sync.occurs_len (Sync.bits_ne_nil (by simp)) ho
    rw [hl, show (bits exSlip).length = 120 by decide +kernel] at hlen
    rw [hl]
    rcases key i (by omega) (List.isPrefixOf_iff_prefix.2 ho) with rfl | rfl | rfl | rfl
    · exact ⟨0, by decide, by omega, by omega⟩
    · exact ⟨32, by decide, by omega, by omega⟩
    · exact ⟨32, by decide, by omega, by omega⟩
    · exact ⟨88, by decide, by omega, by omega⟩

/-- Here the first CADU behind the damaged one is lost with it: its marker is taken for data. So `k ≤ 1` in `C112_slip` cannot be improved. -/
theorem C112_costs_two (r : Reader) (hr : Smooth r exSlip) (items : List (Except Error Block)) (e : Option Sync.Iter)
    (h : Collects Sync.next (Sync.iter r [0x1a, 0xcf] 2) items e) : items.map itemData = [.ok [1, 2], .ok [9, 0x1a], .ok [5, 6]] := by
  obtain ⟨i1, s1, ps, a1, a2, a3⟩ := Sync.run_iter r exSlip [0x1a, 0xcf] (by simp) 2 hr
  obtain ⟨rfl, _⟩ := h.unique a1
  obtain rfl := Sync.markers_unique exSlip_markers a2
  have hl := Sync.itemsOK_length a3
  have at' : ∀ (k p : Nat) (d : List U8), ([0, 32, 88] : List Nat)[k]? = some p → d.length = 2 →
      (bits exSlip).drop p = bits [0x1a, 0xcf] ++ (bits d ++ (bits exSlip).drop (p + 32)) → (items.map itemData)[k]? = some (.ok d) := by
    intro k p d hk hd hs
    obtain ⟨it, g1, g2⟩ := Sync.itemsOK_get a3 hk
    rw [List.getElem?_map, g1]
    exact congrArg some (item_data_at (by simp) g2 hd hs)
  refine List.ext_getElem? fun i => ?_
  match i with
  | 0 => exact at' 0 0 [1, 2] rfl rfl (by decide +kernel)
  | 1 => exact at' 1 32 [9, 0x1a] rfl rfl (by decide +kernel)
  | 2 => exact at' 2 88 [5, 6] rfl rfl (by decide +kernel)
  | i + 3 =>
    rw [List.getElem?_eq_none (by rw [List.length_map, hl]; simp), List.getElem?_eq_none (by simp)]

/-- The hypotheses of `C112_slip` are met by it. -/
example (r : Reader) (hr : Smooth r exSlip) (items : List (Except Error Block)) (e : Option Sync.Iter)
    (h : Collects Sync.next (Sync.iter r [0x1a, 0xcf] 2) items e) : ∃ k mid post, k ≤ 1 ∧
      items.map itemData = [[1, 2]].map .ok ++ mid ++ ([[3, 4], [5, 6]].drop k).map .ok ++ post ∧ mid.length * 32 < 24 + 32 := by
  obtain ⟨k, mid, post, h1, h2, h3, _⟩ := C112_slip r exSlip [0x1a, 0xcf] 2 hr (by simp) [[1, 2]] [[3, 4], [5, 6]] (bits [0x1a, 0xcf, 9]) [] (by decide) (by decide)
    exSlip_bits exSlip_free items e h
  exact ⟨k, mid, post, h1, h2, by rw [bits_length] at h3; exact h3⟩

/-- One randomized frame, aligned; then three stray bits, and two more frames at the new alignment. -/
def exSlipped : List U8 := [0x1a, 0xcf, 0xfc, 0x1d] ++ Pn.derandomize [0x67, 0x6b, 0, 0, 4, 0, 9, 9] ++ exCadus

/-- The hypotheses of `C112_pipeline` are met by it. -/
example (b : Build) (r : Reader) (hr : Smooth r exSlipped) (fs : List Frame) (h : Outputs b (Config.new 8) r fs true) :
    ∃ mid, mid.length ≤ 1 ∧ fs.map (·.data) <+: [[0x67, 0x6b, 0, 0, 4, 0, 9, 9]] ++ mid ++ exPipeFrames ++ [] ∧ [[0x67, 0x6b, 0, 0, 4, 0, 9, 9]] <+: fs.map (·.data) := by
  have key : ∀ i < 192, (bits Sync.ASM).isPrefixOf ((caduBits Sync.ASM (exPipeFrames.map (sent true)) ++ [false, false, false, false, false]).drop i) = true → i % 96 = 0 := by decide +kernel
  have key2 : ∀ i < 3, (bits Sync.ASM).isPrefixOf (([true, false, true] ++ caduBits Sync.ASM (exPipeFrames.map (sent true)) ++ [false, false, false, false, false]).drop i) = false := by
    decide +kernel
  have h6 : ∀ d ∈ [[0x67, 0x6b, 0, 0, 4, 0, 9, 9]] ++ exPipeFrames, d.length = 8 ∧ (VCDUHeader.decode d).isSome = true := by decide +kernel
  obtain ⟨k, mid, post, h1, h2, h3, h4, h5, h7⟩ := C112_pipeline b (Config.new 8) r exSlipped hr [[0x67, 0x6b, 0, 0, 4, 0, 9, 9]] exPipeFrames [true, false, true]
    [false, false, false, false, false] (fun d hd => ⟨(h6 d (List.mem_append.2 (.inl hd))).1, Option.isSome_iff_exists.1 (h6 d (List.mem_append.2 (.inl hd))).2⟩)
    (fun d hd => ⟨(h6 d (List.mem_append.2 (.inr hd))).1, Option.isSome_iff_exists.1 (h6 d (List.mem_append.2 (.inr hd))).2⟩) (by decide +kernel)
    (fun i hi ho => key i (by rw [show (192 : Nat) = (caduBits Sync.ASM (exPipeFrames.map (sent true))).length by decide +kernel]; exact hi) (List.isPrefixOf_iff_prefix.2 ho)) fs true h
  have hp : post = [] := h4 fun i ho => by
    have := Sync.occurs_len (Sync.bits_ne_nil (by simp [Sync.ASM])) ho
    rw [show (bits Sync.ASM).length = 32 by decide +kernel] at this
    simp at this
  have hk : k = 0 := h3 fun i hi ho => by
    have := key2 i hi
    exact absurd (this.symm.trans (List.isPrefixOf_iff_prefix.2 ho)) (by decide)
  subst hp hk
  refine ⟨mid, ?_, h5, (h7 rfl).1⟩
  rw [show (Config.new 8).blockLength = 8 from rfl] at h2
  simp only [List.length_cons, List.length_nil] at h2
  omega

end Ccsds
