import Verif.Model.NumberRanges
import Verif.Props.Filter
/-!
# C55: number range arguments
-/
namespace Ccsds
open Spec Ranges

/-! ## Specification -/

/-- The value of a string of decimal digits. -/
def decimal : List Char → Nat := fun s => s.foldl (fun n c => 10 * n + (c.toNat - '0'.toNat)) 0

/-- `s` writes the number `n`, below 2^32, in decimal (leading zeros allowed). -/
def IsNumber (s : List Char) (n : Nat) : Prop := s ≠ [] ∧ (∀ c ∈ s, c ∈ ['0', '1', '2', '3', '4', '5', '6', '7', '8', '9']) ∧ n = decimal s ∧ n < 2 ^ 32

/-- `s` is a number, standing for itself, or a range `a-b` with a < b, standing for all values from a to b inclusive, ascending. -/
def Denotes (s : List Char) (vs : List Nat) : Prop :=
  (∃ n, IsNumber s n ∧ vs = [n]) ∨
  (∃ a b x y, s = a ++ '-' :: b ∧ IsNumber a x ∧ IsNumber b y ∧ x < y ∧ vs.Pairwise (· < ·) ∧ ∀ n, n ∈ vs ↔ x ≤ n ∧ n ≤ y)

/-- What is assumed about `\\d`. -/
structure DigitClass (ud : Char → Bool) : Prop where
  ascii : ∀ c ∈ ['0', '1', '2', '3', '4', '5', '6', '7', '8', '9'], ud c = true
  dash : ud '-' = false

/-! ## Proofs -/

theorem digit?_iff (c : Char) (d : Nat) : digit? c = some d ↔ c ∈ ['0', '1', '2', '3', '4', '5', '6', '7', '8', '9'] ∧ d = c.toNat - '0'.toNat := by
  have key : ('0' ≤ c ∧ c ≤ '9') ↔ c ∈ ['0', '1', '2', '3', '4', '5', '6', '7', '8', '9'] := by
    constructor
    · rintro ⟨h1, h2⟩
      have h1 : 48 ≤ c.toNat := h1
      have h2 : c.toNat ≤ 57 := h2
      have : ∀ x : Char, c.toNat = x.toNat → c = x := fun x h => Char.toNat_inj.1 h
      have hc : c.toNat = 48 ∨ c.toNat = 49 ∨ c.toNat = 50 ∨ c.toNat = 51 ∨ c.toNat = 52 ∨ c.toNat = 53 ∨ c.toNat = 54 ∨ c.toNat = 55 ∨
        c.toNat = 56 ∨ c.toNat = 57 := by omega
      rcases hc with h | h | h | h | h | h | h | h | h | h
      · rw [this '0' h]; decide
      · rw [this '1' h]; decide
      · rw [this '2' h]; decide
      · rw [this '3' h]; decide
      · rw [this '4' h]; decide
      · rw [this '5' h]; decide
      · rw [this '6' h]; decide
      · rw [this '7' h]; decide
      · rw [this '8' h]; decide
      · rw [this '9' h]; decide
    · intro h
      simp only [List.mem_cons, List.not_mem_nil, or_false] at h
      rcases h with rfl | rfl | rfl | rfl | rfl | rfl | rfl | rfl | rfl | rfl <;> decide
  unfold digit?
  rw [← key]
  split
  · rename_i h
    simp only [Option.some.injEq, h, and_self, true_and]
    exact eq_comm
  · rename_i h
    simp [h]

theorem parseU32_iff (s : List Char) : ∀ acc n, parseU32 s acc = some n ↔
    (∀ c ∈ s, c ∈ ['0', '1', '2', '3', '4', '5', '6', '7', '8', '9']) ∧ n = s.foldl (fun n c => 10 * n + (c.toNat - '0'.toNat)) acc ∧ (s ≠ [] → n < 2 ^ 32) := by
  induction s with
  | nil => intro acc n; simp [parseU32, eq_comm]
  | cons c s ih =>
    intro acc n
    rw [parseU32]
    cases hd : digit? c with
    | none =>
      simp only [reduceCtorEq, false_iff]
      rintro ⟨h, _⟩
      have := (digit?_iff c _).2 ⟨h c (by simp), rfl⟩
      rw [hd] at this
      cases this
    | some d =>
      obtain ⟨h1, h2⟩ := (digit?_iff c d).1 hd
      simp only
      have hmono : ∀ (s : List Char) a, a ≤ s.foldl (fun n c => 10 * n + (c.toNat - '0'.toNat)) a := by
        intro s
        induction s with
        | nil => intro a; exact Nat.le_refl a
        | cons c s ih => intro a; rw [List.foldl_cons]; exact Nat.le_trans (by omega) (ih _)
      have he : 10 * acc + (c.toNat - '0'.toNat) = acc * 10 + d := by rw [← h2]; omega
      rw [List.foldl_cons, he]
      split
      · rename_i hlt
        rw [ih]
        constructor
        · rintro ⟨a, rfl, b⟩
          refine ⟨?_, rfl, ?_⟩
          · intro x hx
            rcases List.mem_cons.1 hx with rfl | hx
            · exact h1
            · exact a x hx
          · intro _
            cases s with
            | nil => exact hlt
            | cons y s => exact b (by simp)
        · rintro ⟨a, b, e⟩
          exact ⟨fun x hx => a x (by simp [hx]), b, fun _ => e (by simp)⟩
      · rename_i hge
        simp only [reduceCtorEq, false_iff]
        rintro ⟨_, rfl, h⟩
        have := hmono s (acc * 10 + d)
        have := h (by simp)
        omega

theorem parseU32_isNumber (s : List Char) (n : Nat) (hs : s ≠ []) : parseU32 s 0 = some n ↔ IsNumber s n := by
  rw [parseU32_iff]
  unfold IsNumber decimal
  constructor
  · rintro ⟨a, b, c⟩; exact ⟨hs, a, b, c hs⟩
  · rintro ⟨_, a, b, c⟩; exact ⟨a, b, fun _ => c⟩

theorem range_spec (x y : Nat) (vs : List Nat) (h : x < y) :
    (vs.Pairwise (· < ·) ∧ ∀ n, n ∈ vs ↔ x ≤ n ∧ n ≤ y) ↔ vs = List.range' x (y + 1 - x) := by
  have hr : (List.range' x (y + 1 - x)).Pairwise (· < ·) ∧ ∀ n, n ∈ List.range' x (y + 1 - x) ↔ x ≤ n ∧ n ≤ y := by
    refine ⟨List.pairwise_lt_range', ?_⟩
    intro n
    rw [List.mem_range'_1]
    omega
  constructor
  · rintro ⟨h1, h2⟩
    have hp : vs.Perm (List.range' x (y + 1 - x)) := by
      rw [List.perm_ext_iff_of_nodup (h1.imp (fun h => Nat.ne_of_lt h)) (hr.1.imp (fun h => Nat.ne_of_lt h))]
      intro n
      rw [h2, hr.2]
    exact hp.eq_of_pairwise (fun a b _ _ h1 h2 => by omega) h1 hr.1
  · rintro rfl; exact hr

theorem all_digits_no_dash {ud : Char → Bool} (hu : DigitClass ud) {s : List Char} (h : s.all ud = true) : '-' ∉ s := by
  intro hm
  have := List.all_eq_true.1 h _ hm
  rw [hu.dash] at this
  cases this

theorem isNumber_all {ud : Char → Bool} (hu : DigitClass ud) {s : List Char} {n : Nat} (h : IsNumber s n) : s.all ud = true :=
  List.all_eq_true.2 fun c hc => hu.ascii c (h.2.1 c hc)

theorem item_iff (ud : Char → Bool) (hu : DigitClass ud) (s : List Char) (vs : List Nat) : item ud s = some vs ↔ Denotes s vs := by
  unfold item captures
  by_cases h1 : (!s.isEmpty && s.all ud) = true
  · rw [if_pos h1]
    simp only [Bool.and_eq_true, Bool.not_eq_true', List.isEmpty_eq_false_iff] at h1
    simp only [Option.map_eq_some_iff]
    constructor
    · rintro ⟨n, hn, rfl⟩
      exact .inl ⟨n, (parseU32_isNumber s n h1.1).1 hn, rfl⟩
    · rintro (⟨n, hn, rfl⟩ | ⟨a, b, x, y, rfl, _⟩)
      · exact ⟨n, (parseU32_isNumber s n h1.1).2 hn, rfl⟩
      · exact absurd (List.mem_append_right a (List.mem_cons_self)) (all_digits_no_dash hu h1.2)
  · rw [if_neg h1]
    have hnum : ∀ n, ¬ IsNumber s n := by
      intro n hn
      apply h1
      simp only [Bool.and_eq_true, Bool.not_eq_true', List.isEmpty_eq_false_iff]
      exact ⟨hn.1, isNumber_all hu hn⟩
    have hden : Denotes s vs ↔ ∃ a b x y, s = a ++ '-' :: b ∧ IsNumber a x ∧ IsNumber b y ∧ x < y ∧ vs = List.range' x (y + 1 - x) := by
      unfold Denotes
      constructor
      · rintro (⟨n, hn, _⟩ | ⟨a, b, x, y, e, ha, hb, hxy, hv⟩)
        · exact absurd hn (hnum n)
        · exact ⟨a, b, x, y, e, ha, hb, hxy, (range_spec x y vs hxy).1 hv⟩
      · rintro ⟨a, b, x, y, e, ha, hb, hxy, hv⟩
        exact .inr ⟨a, b, x, y, e, ha, hb, hxy, (range_spec x y vs hxy).2 hv⟩
    rw [hden]
    -- split of a range
    have hsplit : ∀ a b : List Char, a.all ud = true → (a ++ '-' :: b).takeWhile ud = a ∧ (a ++ '-' :: b).dropWhile ud = '-' :: b := by
      intro a b ha
      rw [List.takeWhile_append_of_pos (List.all_eq_true.1 ha), List.dropWhile_append_of_pos (List.all_eq_true.1 ha)]
      simp [hu.dash]
    constructor
    · intro h
      split at h
      · cases h
      · rename_i t hc
        split at hc
        · split at hc <;> cases hc
        · cases hc
      · rename_i a b hc
        split at hc
        · rename_i t hdw
          split at hc
          · rename_i hcond
            cases hc
            simp only [Bool.and_eq_true, Bool.not_eq_true', List.isEmpty_eq_false_iff] at hcond
            split at h
            · cases h
            · rename_i x hx
              split at h
              · cases h
              · rename_i y hy
                split at h
                · cases h
                · rename_i hxy
                  cases h
                  refine ⟨_, _, x, y, ?_, (parseU32_isNumber _ _ hcond.1.1).1 hx, (parseU32_isNumber _ _ hcond.1.2).1 hy, by omega, rfl⟩
                  rw [← hdw, List.takeWhile_append_dropWhile]
          · cases hc
        · cases hc
    · rintro ⟨a, b, x, y, rfl, ha, hb, hxy, rfl⟩
      obtain ⟨e1, e2⟩ := hsplit a b (isNumber_all hu ha)
      rw [e1, e2]
      have hcond : (!a.isEmpty && !b.isEmpty && b.all ud) = true := by
        simp only [Bool.and_eq_true, Bool.not_eq_true', List.isEmpty_eq_false_iff]
        exact ⟨⟨ha.1, hb.1⟩, isNumber_all hu hb⟩
      simp only [hcond, ↓reduceIte, (parseU32_isNumber a x ha.1).2 ha, (parseU32_isNumber b y hb.1).2 hb]
      rw [if_neg (by omega)]

/-! ## C55 -/

/-- The values are those of the items, in order, and every item must be a number or a range. -/
theorem C55_parse (ud : Char → Bool) (hu : DigitClass ud) (args : List (List Char)) (vs : List Nat) :
    parse ud args = some vs ↔ ∃ parts : List (List Nat), parts.length = args.length ∧ (∀ p ∈ args.zip parts, Denotes p.1 p.2) ∧ vs = parts.flatten := by
  induction args generalizing vs with
  | nil =>
    rw [parse]
    constructor
    · intro h; cases h; exact ⟨[], rfl, by simp, rfl⟩
    · rintro ⟨parts, h, _, rfl⟩
      rw [List.eq_nil_of_length_eq_zero h]; rfl
  | cons s args ih =>
    rw [parse]
    constructor
    · intro h
      split at h
      · cases h
      · rename_i us hi
        split at h
        · cases h
        · rename_i ws hw
          cases h
          obtain ⟨parts, h1, h2, rfl⟩ := (ih ws).1 hw
          refine ⟨us :: parts, by simp [h1], ?_, rfl⟩
          intro p hp
          rw [List.zip_cons_cons] at hp
          rcases List.mem_cons.1 hp with rfl | hp
          · exact (item_iff ud hu s us).1 hi
          · exact h2 p hp
    · rintro ⟨parts, h1, h2, rfl⟩
      cases parts with
      | nil => simp at h1
      | cons us parts =>
        have hi := (item_iff ud hu s us).2 (h2 (s, us) (by simp))
        have hw := (ih parts.flatten).2 ⟨parts, by simpa using h1, fun p hp => h2 p (by simp [hp]), rfl⟩
        simp only [hi, hw]
        rfl

/-- An item stands for at most one list of values. -/
theorem C55_denotes_unique (s : List Char) (vs ws : List Nat) (h : Denotes s vs) (k : Denotes s ws) : vs = ws := by
  let ud : Char → Bool := fun c => ['0', '1', '2', '3', '4', '5', '6', '7', '8', '9'].contains c
  have hu : DigitClass ud := ⟨by simp [ud], by decide⟩
  have h1 := (item_iff ud hu s vs).2 h
  rw [(item_iff ud hu s ws).2 k] at h1
  cases h1
  rfl

/-- An error exactly if some item is neither a number nor a range. -/
theorem C55_error (ud : Char → Bool) (hu : DigitClass ud) (args : List (List Char)) :
    parse ud args = none ↔ ∃ s ∈ args, ∀ vs, ¬ Denotes s vs := by
  induction args with
  | nil => simp [parse]
  | cons s args ih =>
    rw [parse]
    cases hi : item ud s with
    | none =>
      simp only [true_iff]
      refine ⟨s, by simp, fun vs h => ?_⟩
      rw [(item_iff ud hu s vs).2 h] at hi
      cases hi
    | some us =>
      have hd := (item_iff ud hu s us).1 hi
      have : (∃ t ∈ s :: args, ∀ vs, ¬ Denotes t vs) ↔ ∃ t ∈ args, ∀ vs, ¬ Denotes t vs := by
        constructor
        · rintro ⟨t, ht, hn⟩
          rcases List.mem_cons.1 ht with rfl | ht
          · exact absurd hd (hn us)
          · exact ⟨t, ht, hn⟩
        · rintro ⟨t, ht, hn⟩; exact ⟨t, by simp [ht], hn⟩
      rw [this, ← ih]
      cases parse ud args <;> simp

/-- The APIDs (VCIDs) passed on are the values below 2^16; others are dropped without an error. -/
theorem C55_apids (vs : List Nat) (a : U16) : a ∈ toU16 vs ↔ a.toNat ∈ vs := by
  unfold toU16
  rw [List.mem_filterMap]
  constructor
  · rintro ⟨v, hv, h⟩
    split at h
    · rename_i hlt
      cases h
      rw [BitVec.toNat_ofNat, Nat.mod_eq_of_lt hlt]
      exact hv
    · cases h
  · intro h
    refine ⟨_, h, ?_⟩
    rw [if_pos a.isLt, BitVec.ofNat_toNat, BitVec.setWidth_eq]

/-- Consequence: an include list of only such values is the same as none. `--include 70000` together with `--exclude` keeps every packet that is
not excluded. -/
theorem C55_include_dropped (b : Build) (τ : Epoch → Int) (ud : Char → Bool) (r : Reader) (incl excl : List (List Char)) (before after : Option Epoch)
    (vs : List Nat) (hv : parse ud incl = some vs) (hbig : ∀ v ∈ vs, 2 ^ 16 ≤ v) (res : Option Filter.FResult) :
    FilterCommand b τ ud r incl excl before after res ↔ FilterCommand b τ ud r [] excl before after res := by
  have h0 : toU16 vs = [] := by
    unfold toU16
    rw [List.filterMap_eq_nil_iff]
    intro v hm
    have := hbig v hm
    rw [if_neg (by omega)]
  unfold FilterCommand
  rw [hv, parse]
  cases parse ud excl with
  | none => rfl
  | some e => simp only [h0]; rfl

/-- The filter command on a packet file, without time bounds: the packets whose APID is among the included values (if any such value is below 2^16)
and not among the excluded ones. -/
theorem C55_filter_command (b : Build) (τ : Epoch → Int) (hτ : τ Filter.minEpoch < τ Filter.maxEpoch) (ud : Char → Bool) (r : Reader) (ps : List Packet)
    (hps : Decodes r ps) (incl excl : List (List Char)) (vi ve : List Nat) (hi : parse ud incl = some vi) (he : parse ud excl = some ve)
    (hne : ∃ v ∈ vi ++ ve, v < 2 ^ 16) (res : Option Filter.FResult) :
    FilterCommand b τ ud r incl excl none none res ↔ res = some (.ok ((ps.filter fun p =>
      decide (((∀ v ∈ vi, 2 ^ 16 ≤ v) ∨ p.header.apid.toNat ∈ vi) ∧ p.header.apid.toNat ∉ ve)).map Packet.data)) := by
  have hnil : ∀ vs : List Nat, toU16 vs = [] ↔ ∀ v ∈ vs, 2 ^ 16 ≤ v := by
    intro vs
    unfold toU16
    rw [List.filterMap_eq_nil_iff]
    refine forall_congr' fun v => forall_congr' fun _ => ?_
    split <;> simp <;> omega
  have hne' : toU16 vi ≠ [] ∨ toU16 ve ≠ [] := by
    obtain ⟨v, hv, hlt⟩ := hne
    rcases List.mem_append.1 hv with h | h
    · exact .inl fun e => by have := (hnil vi).1 e v h; omega
    · exact .inr fun e => by have := (hnil ve).1 e v h; omega
  unfold FilterCommand
  rw [hi, he]
  simp only
  have hf : (fun p : Packet => decide (ApidPasses (toU16 vi) (toU16 ve) p.header.apid)) =
      fun p => decide (((∀ v ∈ vi, 2 ^ 16 ≤ v) ∨ p.header.apid.toNat ∈ vi) ∧ p.header.apid.toNat ∉ ve) := by
    funext p
    unfold ApidPasses
    simp only [C55_apids, hnil]
  constructor
  · rintro ⟨x, rfl, h⟩
    rw [(C53_untimed b τ hτ r ps hps _ _ hne' x).1 h, hf]
  · rintro rfl
    refine ⟨_, rfl, (C53_untimed b τ hτ r ps hps _ _ hne' _).2 ?_⟩
    rw [hf]

/-- The filter command with a time bound (or both): the groups that pass `before` and `after`, each of these as given, and whose first packet's APID is among the included values
(if any such value is below 2^16) and not among the excluded ones. -/
theorem C55_filter_timed (b : Build) (τ : Epoch → Int) (ud : Char → Bool) (bs : List U8) (r : Reader) (ps : List Packet) (gs : List PacketGroup) (hd : r.Delivers bs)
    (hps : Decodes r ps) (hgs : GroupsOf ps gs) (before after : Option Epoch) (hb : before.isSome ∨ after.isSome)
    (hm : before = none → ∀ g ∈ gs, ∀ first ∈ g.packets.head?, ∀ t ∈ cdsTime first, τ t < τ ⟨.utc, (daysTo1958 + 51865) * 86400 * 1000000000⟩)
    (incl excl : List (List Char)) (vi ve : List Nat) (hi : parse ud incl = some vi) (he : parse ud excl = some ve) (res : Option Filter.FResult) :
    FilterCommand b τ ud r incl excl before after res ↔ res = some (.ok ((gs.filter fun g => groupPasses τ [] [] before after g &&
      g.packets.head?.any fun p => decide (((∀ v ∈ vi, 2 ^ 16 ≤ v) ∨ p.header.apid.toNat ∈ vi) ∧ p.header.apid.toNat ∉ ve)).map groupBytes)) := by
  have hnil : ∀ vs : List Nat, toU16 vs = [] ↔ ∀ v ∈ vs, 2 ^ 16 ≤ v := by
    intro vs
    unfold toU16
    rw [List.filterMap_eq_nil_iff]
    refine forall_congr' fun v => forall_congr' fun _ => ?_
    split <;> simp <;> omega
  have hf : groupPasses τ (toU16 vi) (toU16 ve) before after = fun g => groupPasses τ [] [] before after g &&
      g.packets.head?.any fun p => decide (((∀ v ∈ vi, 2 ^ 16 ≤ v) ∨ p.header.apid.toNat ∈ vi) ∧ p.header.apid.toNat ∉ ve) := by
    funext g
    unfold groupPasses
    cases g.packets with
    | nil => rfl
    | cons p rest =>
      have e1 : ApidPasses (toU16 vi) (toU16 ve) p.header.apid ↔ ((∀ v ∈ vi, 2 ^ 16 ≤ v) ∨ p.header.apid.toNat ∈ vi) ∧ p.header.apid.toNat ∉ ve := by
        unfold ApidPasses
        rw [C55_apids, C55_apids, hnil]
      have e2 : ApidPasses [] [] p.header.apid := ⟨.inl rfl, by simp⟩
      simp only [List.head?_cons, Option.any_some, e1, e2, decide_true, Bool.and_true]
      cases cdsTime p with
      | none => simp
      | some t => simp only [Bool.and_assoc]
  unfold FilterCommand
  rw [hi, he]
  simp only
  constructor
  · rintro ⟨x, rfl, h⟩
    rw [(C53_partial b τ bs r ps gs _ _ before after hd hps hgs hb hm x).1 h, hf]
  · rintro rfl
    refine ⟨_, rfl, (C53_partial b τ bs r ps gs _ _ before after hd hps hgs hb hm _).2 ?_⟩
    rw [hf]

namespace RangesEx
def ascii : Char → Bool := fun c => ['0', '1', '2', '3', '4', '5', '6', '7', '8', '9'].contains c
theorem ascii_class : DigitClass ascii := ⟨by simp [ascii], by decide⟩
/-- `--include 7 --include 0800-803`: the hypotheses are met, the end of the range is included. -/
example : parse ascii [['7'], ['0', '8', '0', '0', '-', '8', '0', '3']] = some [7, 800, 801, 802, 803] := by decide +kernel
/-- Descending, empty and one-element ranges, signs, overflow: errors. -/
example : ([['9', '-', '3'], ['3', '-', '3'], ['-', '3'], ['3', '-'], [], ['+', '3'], ['4', '2', '9', '4', '9', '6', '7', '2', '9', '6']].map fun s => parse ascii [s]) =
  [none, none, none, none, none, none, none] := by decide +kernel
/-- `--include 1-2 --after 1900-01-01 --before 2000-01-01` on a packet of 1962 and one of 2137; and with `--before 1900` nothing. -/
example (b : Build) : FilterCommand b FilterEx.tau ascii (Reader.ofBytes FilterEx.stream) [['1', '-', '2']] [] (some ⟨.utc, 36525 * 86400 * 1000000000⟩) (some ⟨.utc, 0⟩)
    (some (.ok [FilterEx.early])) :=
  (C55_filter_timed b FilterEx.tau ascii _ _ _ _ FilterEx.delivers FilterEx.decodes FilterEx.groups _ _ (.inl rfl) (by simp) _ _ [1, 2] [] (by decide +kernel) rfl _).2 (by decide +kernel)
example (b : Build) : FilterCommand b FilterEx.tau ascii (Reader.ofBytes FilterEx.stream) [] [['2']] (some ⟨.utc, 0⟩) (some ⟨.utc, 0⟩) (some (.ok [])) :=
  (C55_filter_timed b FilterEx.tau ascii _ _ _ _ FilterEx.delivers FilterEx.decodes FilterEx.groups _ _ (.inl rfl) (by simp) _ _ [] [2] rfl (by decide +kernel) _).2 (by decide +kernel)
end RangesEx

end Ccsds
