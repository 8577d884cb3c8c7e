import Verif.Props.Timecode
/-!
# C111: CUC time codes order like their bytes
-/
namespace Ccsds
open Spec Timecode

/-- The nanoseconds of the largest fine field stay below one second: the fine field never carries into the seconds.  (A
multiplier that is absent counts as 1, and the fine field has at most three bytes; a negative one makes every fine field 0.) -/
def NoCarry (nf : Nat) (mult : Option F32) : Prop :=
  match mult with
  | none => True
  | some (.fin false m e) => ∃ n, n < 1000000000 ∧ IsTrunc ((2 ^ (8 * nf) - 1) * m) e n
  | some (.fin true _ _) => True
  | _ => False

/-- One unit of the fine field is worth at least one nanosecond. -/
def AtLeastOneNano (mult : Option F32) : Prop :=
  match mult with
  | none => True
  | some (.fin false m (.ofNat _)) => 1 ≤ m
  | some (.fin false m (.negSucc k)) => 2 ^ (k + 1) ≤ m
  | _ => False

theorem isFine_exists (nf : Nat) (mult : Option F32) (hn : NoCarry nf mult) (hnf : nf ≤ 3) (fine : Nat) (hf : fine < 2 ^ (8 * nf)) :
    ∃ n, n < 1000000000 ∧ IsFineNanos fine mult n := by
  have hp : (2 : Nat) ^ (8 * nf) ≤ 2 ^ 24 := Nat.pow_le_pow_right (by omega) (by omega)
  match mult, hn with
  | none, _ => exact ⟨fine, by omega, rfl⟩
  | some (.fin true _ _), _ => exact ⟨0, by omega, rfl⟩
  | some (.fin false m (.ofNat k)), ⟨n, h1, h2⟩ =>
    have h2 : n = (2 ^ (8 * nf) - 1) * m * 2 ^ k := h2
    have hle : fine * m * 2 ^ k ≤ (2 ^ (8 * nf) - 1) * m * 2 ^ k :=
      Nat.mul_le_mul_right _ (Nat.mul_le_mul_right _ (by omega))
    exact ⟨fine * m * 2 ^ k, by omega, by omega, rfl⟩
  | some (.fin false m (.negSucc k)), ⟨n, h1, h2, h3⟩ =>
    have hle : fine * m ≤ (2 ^ (8 * nf) - 1) * m := Nat.mul_le_mul_right _ (by omega)
    have hpos : 0 < 2 ^ (k + 1) := Nat.two_pow_pos _
    have hd : fine * m / 2 ^ (k + 1) < n + 1 := (Nat.div_lt_iff_lt_mul hpos).2 (by omega)
    exact ⟨fine * m / 2 ^ (k + 1), by omega, by omega, Nat.div_mul_le_self _ _, by
      have := Nat.lt_mul_div_succ (fine * m) hpos
      rw [Nat.mul_comm (2 ^ (k + 1))] at this
      exact this⟩

theorem isFine_mono (mult : Option F32) (f g n m : Nat) (h : f ≤ g) (hn : IsFineNanos f mult n) (hm : IsFineNanos g mult m) :
    n ≤ m := by
  match mult, hn, hm with
  | none, hn, hm =>
    have hn : n = f := hn
    have hm : m = g := hm
    omega
  | some (.fin true _ _), hn, hm =>
    have hn : n = 0 := hn
    omega
  | some (.fin false a (.ofNat k)), ⟨_, hn⟩, ⟨_, hm⟩ =>
    have hn : n = f * a * 2 ^ k := hn
    have hm : m = g * a * 2 ^ k := hm
    rw [hn, hm]
    exact Nat.mul_le_mul_right _ (Nat.mul_le_mul_right _ h)
  | some (.fin false a (.negSucc k)), ⟨_, hn, _⟩, ⟨_, _, hm⟩ =>
    have hle : f * a ≤ g * a := Nat.mul_le_mul_right _ h
    have : n * 2 ^ (k + 1) < (m + 1) * 2 ^ (k + 1) := by omega
    have := Nat.lt_of_mul_lt_mul_right this
    omega

theorem isFine_strict (mult : Option F32) (h1 : AtLeastOneNano mult) (f g n m : Nat) (h : f < g) (hn : IsFineNanos f mult n)
    (hm : IsFineNanos g mult m) : n < m := by
  match mult, h1, hn, hm with
  | none, _, hn, hm =>
    have hn : n = f := hn
    have hm : m = g := hm
    omega
  | some (.fin false a (.ofNat k)), h1, ⟨_, hn⟩, ⟨_, hm⟩ =>
    have h1 : 1 ≤ a := h1
    have hn : n = f * a * 2 ^ k := hn
    have hm : m = g * a * 2 ^ k := hm
    rw [hn, hm]
    exact Nat.mul_lt_mul_of_pos_right (Nat.mul_lt_mul_of_pos_right h h1) (Nat.two_pow_pos _)
  | some (.fin false a (.negSucc k)), h1, ⟨_, hn, _⟩, ⟨_, _, hm⟩ =>
    have h1 : 2 ^ (k + 1) ≤ a := h1
    have hle : (f + 1) * a ≤ g * a := Nat.mul_le_mul_right _ h
    rw [Nat.add_mul, Nat.one_mul] at hle
    have : (n + 1) * 2 ^ (k + 1) < (m + 1) * 2 ^ (k + 1) := by
      rw [Nat.add_mul, Nat.one_mul]
      omega
    have := Nat.lt_of_mul_lt_mul_right this
    omega

/-- For time codes of one CUC format whose fine field never carries into the seconds, the decoded TAI instants are ordered as
the byte strings are lexicographically; and if a unit of the fine field is worth a nanosecond or more, different byte strings
give different instants, so that sorting by instant and sorting by bytes are the same. -/
theorem C111_order (b : Build) (nc nf : Nat) (mult : Option F32) (hc : 1 ≤ nc ∧ nc ≤ 4 ∧ nf ≤ 3) (hm : NoCarry nf mult)
    (as bs : List U8) (ha : as.length = nc + nf) (hb : bs.length = nc + nf) :
    ∃ x y, decode b (.cuc nc nf mult) as = .ret (.ok ⟨.tai, x⟩) ∧ decode b (.cuc nc nf mult) bs = .ret (.ok ⟨.tai, y⟩) ∧
      (as < bs → x ≤ y) ∧ (AtLeastOneNano mult → (x < y ↔ as < bs) ∧ (x = y ↔ as = bs)) := by
  have wa := field_lt as (8 * nc) (8 * nf)
  have wb := field_lt bs (8 * nc) (8 * nf)
  obtain ⟨n, hn1, hn2⟩ := isFine_exists nf mult hm hc.2.2 _ wa
  obtain ⟨m, hm1, hm2⟩ := isFine_exists nf mult hm hc.2.2 _ wb
  refine ⟨_, _, (C17_decode b nc nf mult as).2.2 hc (by omega) n hn2, (C17_decode b nc nf mult bs).2.2 hc (by omega) m hm2, ?_⟩
  have split : ∀ (l : List U8), l.length = nc + nf → beNat l =
      field l 0 (8 * nc) * 2 ^ (8 * nf) + field l (8 * nc) (8 * nf) := by
    intro l hl
    have e : bits l = (bits l).take (8 * nc) ++ ((bits l).drop (8 * nc)).take (8 * nf) := by
      rw [List.take_of_length_le (l := (bits l).drop (8 * nc)) (by simp; omega), List.take_append_drop]
    rw [beNat_eq]
    conv => lhs; rw [e]
    rw [natOfBits_append]
    have l2 : (((bits l).drop (8 * nc)).take (8 * nf)).length = 8 * nf := by simp; omega
    rw [l2]
    simp only [field, List.drop_zero]
  have hlex := lex_iff as bs (by omega)
  have heq : as = bs ↔ beNat as = beNat bs := by
    constructor
    · rintro rfl; rfl
    · intro h
      rw [beNat_eq, beNat_eq] at h
      exact bits_inj (natOfBits_inj (by simp; omega) h)
  rw [heq, ← hlex, split as ha, split bs hb]
  have mono := fun h => isFine_mono mult _ _ n m h hn2 hm2
  have mono' := fun h => isFine_mono mult _ _ m n h hm2 hn2
  have str := fun h1 h => isFine_strict mult h1 _ _ n m h hn2 hm2
  have str' := fun h1 h => isFine_strict mult h1 _ _ m n h hm2 hn2
  unfold cucInstant
  generalize field as 0 (8 * nc) = d1 at *
  generalize field bs 0 (8 * nc) = d2 at *
  generalize field as (8 * nc) (8 * nf) = u1 at *
  generalize field bs (8 * nc) (8 * nf) = u2 at *
  generalize 2 ^ (8 * nf) = p at *
  have cmp : ∀ a b u v : Nat, u < p → v < p → (a * p + u < b * p + v ↔ a < b ∨ (a = b ∧ u < v)) := by
    intro a b u v hu hv
    constructor
    · intro h
      rcases Nat.lt_trichotomy a b with h1 | h1 | h1
      · exact Or.inl h1
      · subst h1; exact Or.inr ⟨rfl, by omega⟩
      · exfalso
        have : (b + 1) * p ≤ a * p := Nat.mul_le_mul_right p h1
        rw [Nat.add_mul] at this
        omega
    · rintro (h1 | ⟨rfl, h1⟩)
      · have : (a + 1) * p ≤ b * p := Nat.mul_le_mul_right p h1
        rw [Nat.add_mul] at this
        omega
      · omega
  have c1 := cmp d1 d2 u1 u2 wa wb
  have c2 := cmp d2 d1 u2 u1 wb wa
  refine ⟨fun h => ?_, fun h1 => ?_⟩
  · rcases c1.1 h with h2 | ⟨rfl, h2⟩
    · omega
    · have := mono (by omega)
      omega
  · have s1 := str h1
    have s2 := str' h1
    have e0 : u1 = u2 → n = m := fun h => Nat.le_antisymm (mono (by omega)) (mono' (by omega))
    have e1 : (d1 * p + u1 = d2 * p + u2) ↔ (d1 = d2 ∧ u1 = u2) := by
      constructor
      · intro h
        rcases Nat.lt_trichotomy d1 d2 with h2 | h2 | h2
        · have := c1.2 (Or.inl h2); omega
        · subst h2; exact ⟨rfl, by omega⟩
        · have := c2.2 (Or.inl h2); omega
      · rintro ⟨rfl, rfl⟩; rfl
    rw [c1, e1]
    have key : (u1 < u2 ∧ n < m) ∨ (u1 = u2 ∧ n = m) ∨ (u2 < u1 ∧ m < n) := by
      rcases Nat.lt_trichotomy u1 u2 with h2 | h2 | h2
      · exact Or.inl ⟨h2, s1 h2⟩
      · exact Or.inr (Or.inl ⟨h2, e0 h2⟩)
      · exact Or.inr (Or.inr ⟨h2, s2 h2⟩)
    omega

/-- The EOS format of the crate's tests (four coarse and two fine bytes, 15200 ns per unit) qualifies: the largest fine field is worth
996132000 ns. -/
example : NoCarry 2 (some (.fin false 475 5)) ∧ AtLeastOneNano (some (.fin false 475 5)) := by
  refine ⟨⟨996132000, by omega, ?_⟩, ?_⟩
  · show _ = _ * 2 ^ 5
    omega
  · show 1 ≤ 475
    omega

/-- Below one nanosecond per unit different byte strings can give the same instant … -/
theorem C111_ties : ∃ as bs : List U8, as < bs ∧ NoCarry 1 (some (.fin false 1 (-1))) ∧ ∃ x,
    decode ⟨true⟩ (.cuc 1 1 (some (.fin false 1 (-1)))) as = .ret (.ok x) ∧
    decode ⟨true⟩ (.cuc 1 1 (some (.fin false 1 (-1)))) bs = .ret (.ok x) := by
  refine ⟨[0, 0], [0, 1], by decide, ⟨127, by omega, ?_⟩, ⟨.tai, cucInstant 0 0⟩, by decide +kernel, by decide +kernel⟩
  show _ * 2 ^ 1 ≤ _ ∧ _ < _ * 2 ^ 1
  omega

/-- … and where the fine field carries into the seconds the order can be reversed: with 15200 ns per unit and three fine bytes
the second byte string is greater, and its instant is earlier. -/
theorem C111_carry : ∃ as bs : List U8, as < bs ∧ as.length = 4 ∧ bs.length = 4 ∧ ∃ x y,
    decode ⟨true⟩ (.cuc 1 3 (some (.fin false 475 5))) as = .ret (.ok ⟨.tai, x⟩) ∧
    decode ⟨true⟩ (.cuc 1 3 (some (.fin false 475 5))) bs = .ret (.ok ⟨.tai, y⟩) ∧ y < x :=
  ⟨[0, 255, 255, 255], [1, 0, 0, 0], by decide, rfl, rfl, cucInstant 0 (16777215 * 15200), cucInstant 1 0, by decide +kernel,
    by decide +kernel, by decide +kernel⟩

end Ccsds
