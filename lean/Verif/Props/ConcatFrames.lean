import Verif.Props.Prompt
import Verif.Props.Framing
/-!
# C106: recordings of CADUs one after the other (`cat A B`)
-/
namespace Ccsds
open Spec

/-! ## Markers of one stream followed by another -/

theorem occurs_left {m x y : List Bool} {i : Nat} (h : Occurs m x i) : Occurs m (x ++ y) i := by
  obtain ⟨z, hz⟩ := h
  refine ⟨z ++ (y.drop (i - x.length)), ?_⟩
  rw [List.drop_append, ← hz, List.append_assoc]

theorem occurs_of_left {m x y : List Bool} {i : Nat} (h : Occurs m (x ++ y) i) (hl : i + m.length ≤ x.length) : Occurs m x i := by
  unfold Occurs at *
  rw [List.drop_append_of_le_length (by omega)] at h
  exact List.prefix_of_prefix_length_le h (List.prefix_append _ _) (by rw [List.length_drop]; omega)

theorem occurs_right {m x y : List Bool} {i : Nat} : Occurs m (x ++ y) (x.length + i) ↔ Occurs m y i := by
  unfold Occurs
  rw [List.drop_append, List.drop_eq_nil_of_le (by omega), show x.length + i - x.length = i by omega, List.nil_append]

theorem markers_shift {m y : List Bool} {skip a : Nat} {ps : List Nat} (x : List Bool) (h : Markers m y skip a ps) :
    Markers m (x ++ y) skip (x.length + a) (ps.map (x.length + ·)) := by
  induction h with
  | none h =>
    refine .none fun i hi ho => ?_
    obtain ⟨j, rfl⟩ : ∃ j, i = x.length + j := ⟨i - x.length, by omega⟩
    exact h j (by omega) (occurs_right.1 ho)
  | @cons a i ps h1 _ ih =>
    rw [List.map_cons]
    refine .cons ⟨by have := h1.1; omega, occurs_right.2 h1.2.1, fun j hj hji ho => ?_⟩ ?_
    · obtain ⟨k, rfl⟩ : ∃ k, j = x.length + k := ⟨j - x.length, by omega⟩
      exact h1.2.2 k (by omega) (by omega) (occurs_right.1 ho)
    · rw [show x.length + i + m.length + skip = x.length + (i + m.length + skip) by omega]
      exact ih

theorem markers_concat {m x y : List Bool} {skip a : Nat} {ps qs : List Nat} (hm : m ≠ []) (h : Markers m x skip a ps) (p : Nat) (hp : ps.getLast? = some p)
    (hend : p + m.length + skip = x.length) (hq : Markers m y skip 0 qs) : Markers m (x ++ y) skip a (ps ++ qs.map (x.length + ·)) := by
  induction h with
  | none h => simp at hp
  | @cons a i ps h1 h2 ih =>
    have hi := Sync.occurs_len hm h1.2.1
    refine .cons ⟨h1.1, occurs_left h1.2.1, fun j hj hji ho => h1.2.2 j hj hji (occurs_of_left ho (by omega))⟩ ?_
    cases ps with
    | nil =>
      simp only [List.getLast?_singleton, Option.some.injEq] at hp
      subst hp
      rw [hend]
      exact markers_shift x hq
    | cons p' ps => exact ih (by rw [List.getLast?_cons_cons] at hp; exact hp)

/-! ## Blocks -/

/-- The block, `n` bytes further into the stream. -/
def Block.moved (n : Nat) (b : Block) : Block := { b with loc := ⟨b.loc.offset + n, b.loc.bit⟩ }

/-- The items of a stream when it follows `n` bytes whose last block started at `prev`: the blocks are `n` bytes further on, and the first one knows its distance from the block before
it; nothing else changes. -/
def following (n prev : Nat) : List (Except Error Block) → List (Except Error Block)
  | [] => []
  | .ok b :: items => .ok { b.moved n with last := b.loc.offset + n - prev } :: items.map (·.map (Block.moved n))
  | .error e :: items => .error e :: items.map (·.map (Block.moved n))

namespace Sync

theorem bits_right (A B : List U8) (k n : Nat) : (bits (A ++ B)).drop (8 * A.length + k + n) = (bits B).drop (k + n) := by
  rw [bits_append, List.drop_append, List.drop_eq_nil_of_le (by rw [bits_length]; omega), List.nil_append, bits_length]
  congr 1; omega

theorem itemOK_left {A B : List U8} {n len prev i : Nat} {it : Except Error Block} (h : ItemOK A n len prev i it) (hf : i + 8 * n + 8 * len ≤ 8 * A.length) :
    ItemOK (A ++ B) n len prev i it := by
  unfold ItemOK at *
  rw [if_pos hf] at h
  rw [if_pos (by rw [List.length_append]; omega)]
  obtain ⟨d, h1, h2, h3⟩ := h
  refine ⟨d, h1, ?_, h3⟩
  rw [h2, bits_append, List.drop_append_of_le_length (by rw [bits_length]; omega), List.take_append_of_le_length (by rw [List.length_drop, bits_length]; omega)]

theorem itemOK_right (A : List U8) {B : List U8} {n len prev i : Nat} {it : Except Error Block} (h : ItemOK B n len prev i it) (hp : prev ≠ 0) :
    ItemOK (A ++ B) n len (prev + A.length) (8 * A.length + i) (it.map (Block.moved A.length)) := by
  unfold ItemOK at *
  have e1 : (8 * A.length + i) / 8 + n = A.length + (i / 8 + n) := by omega
  have e2 : (8 * A.length + i) % 8 = i % 8 := by omega
  have e3 : (A ++ B).drop (A.length + (i / 8 + n)) = B.drop (i / 8 + n) := by
    rw [List.drop_append, List.drop_eq_nil_of_le (by omega), List.nil_append]; congr 1; omega
  by_cases hf : i + 8 * n + 8 * len ≤ 8 * B.length
  · rw [if_pos hf] at h
    rw [if_pos (by rw [List.length_append]; omega)]
    obtain ⟨d, h1, h2, rfl⟩ := h
    refine ⟨d, h1, ?_, ?_⟩
    · rw [h2, bits_right]
    · rw [if_neg hp, if_neg (by omega), e1, e2]
      simp only [Except.map, Block.moved, Except.ok.injEq, Block.mk.injEq, Loc.mk.injEq, and_true]
      omega
  · rw [if_neg hf] at h
    rw [if_neg (by rw [List.length_append]; omega), e1, e2, e3]
    by_cases h0 : i % 8 = 0
    · rw [if_pos h0] at h ⊢
      subst h
      rw [if_neg hp, if_neg (by omega)]
      simp only [Except.map, Block.moved, Except.ok.injEq, Block.mk.injEq, Loc.mk.injEq, and_true]
      omega
    · rw [if_neg h0] at h ⊢
      subst h
      rfl

theorem itemsOK_right (A : List U8) {B : List U8} {n len : Nat} : ∀ {ps : List Nat} {prev : Nat} {its : List (Except Error Block)}, ItemsOK B n len prev ps its → prev ≠ 0 →
    ItemsOK (A ++ B) n len (prev + A.length) (ps.map (8 * A.length + ·)) (its.map (·.map (Block.moved A.length))) := by
  intro ps
  induction ps with
  | nil => intro prev its h hp; cases its <;> first | trivial | exact h.elim
  | cons p ps ih =>
    intro prev its h hp
    cases its with
    | nil => exact h.elim
    | cons it its =>
      refine ⟨itemOK_right A h.1 hp, ?_⟩
      have := ih h.2 (by omega)
      rw [show (8 * A.length + p) / 8 + n + 1 = p / 8 + n + 1 + A.length by omega]
      exact this

theorem itemsOK_following (A : List U8) {B : List U8} {n len prev : Nat} {ps : List Nat} {its : List (Except Error Block)} (h : ItemsOK B n len 0 ps its) (hp : prev ≠ 0) :
    ItemsOK (A ++ B) n len prev (ps.map (8 * A.length + ·)) (following A.length prev its) := by
  cases ps with
  | nil => cases its <;> first | trivial | exact h.elim
  | cons i ps =>
    cases its with
    | nil => exact h.elim
    | cons it its =>
      have hr := itemsOK_right A h.2 (by omega)
      have hh := h.1
      have e1 : (8 * A.length + i) / 8 + n = A.length + (i / 8 + n) := by omega
      have e2 : (8 * A.length + i) % 8 = i % 8 := by omega
      have e3 : (A ++ B).drop (A.length + (i / 8 + n)) = B.drop (i / 8 + n) := by
        rw [List.drop_append, List.drop_eq_nil_of_le (by omega), List.nil_append]; congr 1; omega
      have e4 : (8 * A.length + i) / 8 + n + 1 = i / 8 + n + 1 + A.length := by omega
      rw [← e4] at hr
      unfold ItemOK at hh
      by_cases hf : i + 8 * n + 8 * len ≤ 8 * B.length
      · rw [if_pos hf] at hh
        obtain ⟨d, h1, h2, rfl⟩ := hh
        refine ⟨?_, hr⟩
        show ItemOK (A ++ B) n len prev (8 * A.length + i) _
        unfold ItemOK
        rw [if_pos (by rw [List.length_append]; omega)]
        refine ⟨d, h1, ?_, ?_⟩
        · rw [h2, bits_right]
        · rw [if_neg hp, e1, e2]
          simp only [Block.moved, Except.ok.injEq, Block.mk.injEq, Loc.mk.injEq, and_true]
          omega
      · rw [if_neg hf] at hh
        by_cases h0 : i % 8 = 0
        · rw [if_pos h0] at hh
          subst hh
          refine ⟨?_, hr⟩
          show ItemOK (A ++ B) n len prev (8 * A.length + i) _
          unfold ItemOK
          rw [if_neg (by rw [List.length_append]; omega), e1, e2, e3, if_pos h0, if_neg hp]
          simp only [Block.moved, Except.ok.injEq, Block.mk.injEq, Loc.mk.injEq, and_true]
          omega
        · rw [if_neg h0] at hh
          subst hh
          refine ⟨?_, hr⟩
          show ItemOK (A ++ B) n len prev (8 * A.length + i) _
          unfold ItemOK
          rw [if_neg (by rw [List.length_append]; omega), e2, if_neg h0]

theorem itemsOK_append {A B : List U8} {n len : Nat} : ∀ {ps : List Nat} {prev : Nat} {a c : List (Except Error Block)} {p : Nat} {qs : List Nat}, ItemsOK A n len prev ps a →
    (∀ q ∈ ps, q + 8 * n + 8 * len ≤ 8 * A.length) → ps.getLast? = some p → ItemsOK (A ++ B) n len (p / 8 + n + 1) qs c →
    ItemsOK (A ++ B) n len prev (ps ++ qs) (a ++ c) := by
  intro ps
  induction ps with
  | nil => intro prev a c p qs _ _ h; simp at h
  | cons q ps ih =>
    intro prev a c p qs h hf hl hc
    cases a with
    | nil => exact h.elim
    | cons x a =>
      refine ⟨itemOK_left h.1 (hf q (by simp)), ?_⟩
      cases ps with
      | nil =>
        simp only [List.getLast?_singleton, Option.some.injEq] at hl
        subst hl
        cases a with
        | nil => exact hc
        | cons y a => exact h.2.elim
      | cons q' ps => exact ih h.2 (fun r hr => hf r (List.mem_cons_of_mem _ hr)) (by rw [List.getLast?_cons_cons] at hl; exact hl) hc

end Sync

/-- The blocks of one stream after those of another that ends with the end of a block. `p` is the position of its last marker. -/
theorem C106_synchronize (rA rB r : Reader) (A B asm : List U8) (len : Nat) (hA : Smooth rA A) (hB : Smooth rB B) (hr : Smooth r (A ++ B)) (hasm : asm ≠ [])
    (ps : List Nat) (hps : Markers (bits asm) (bits A) (8 * len) 0 ps) (p : Nat) (hp : ps.getLast? = some p) (hend : p + 8 * asm.length + 8 * len = 8 * A.length)
    (a c j : List (Except Error Block)) (ea ec ej : Option Sync.Iter) (ha : Collects Sync.next (Sync.iter rA asm len) a ea)
    (hc : Collects Sync.next (Sync.iter rB asm len) c ec) (hj : Collects Sync.next (Sync.iter r asm len) j ej) :
    j = a ++ following A.length (p / 8 + asm.length + 1) c := by
  obtain ⟨a', s1, ps', a1, a2, a3⟩ := Sync.run_iter rA A asm hasm len hA
  obtain rfl := Sync.markers_unique hps a2
  obtain ⟨rfl, _⟩ := ha.unique a1
  obtain ⟨c', s2, qs, c1, c2, c3⟩ := Sync.run_iter rB B asm hasm len hB
  obtain ⟨rfl, _⟩ := hc.unique c1
  obtain ⟨j', s3, js, j1, j2, j3⟩ := Sync.run_iter r (A ++ B) asm hasm len hr
  obtain ⟨rfl, _⟩ := hj.unique j1
  have hm := Sync.bits_ne_nil hasm
  have hmk := markers_concat hm hps p hp (by rw [bits_length, bits_length]; omega) c2
  rw [← bits_append] at hmk
  obtain rfl := Sync.markers_unique hmk j2
  have hroom := markers_room hm hps
  have hfull : ∀ q ∈ ps, q + 8 * asm.length + 8 * len ≤ 8 * A.length := by
    intro q hq
    obtain ⟨k, hk, rfl⟩ := List.getElem_of_mem hq
    rcases Nat.lt_or_ge (k + 1) ps.length with h1 | h1
    · have x := hroom.2 k _ _ (List.getElem?_eq_getElem hk) (List.getElem?_eq_getElem h1)
      have y := (hroom.1 _ (List.getElem_mem h1)).2
      simp only [bits_length] at x y
      omega
    · rw [List.getLast?_eq_getElem?, show ps.length - 1 = k by omega, List.getElem?_eq_getElem hk] at hp
      cases hp
      omega
  refine Sync.itemsOK_unique j3 ?_
  rw [bits_length]
  exact Sync.itemsOK_append a3 hfull hp (Sync.itemsOK_following A c3 (by omega))

theorem following_data (n prev : Nat) (items : List (Except Error Block)) : (oks (following n prev items)).map (·.data) = (oks items).map (·.data) := by
  have key : ∀ l : List (Except Error Block), (oks (l.map (·.map (Block.moved n)))).map (·.data) = (oks l).map (·.data) := by
    intro l
    induction l with
    | nil => rfl
    | cons x l ih =>
      cases x with
      | ok b => exact congrArg (b.data :: ·) ih
      | error e => exact ih
  match items with
  | [] => rfl
  | .ok b :: l => exact congrArg (b.data :: ·) (key l)
  | .error e :: l => exact key l

/-! ## Frames -/

/-- `fs` are the frames `gs` except that the gap counts may be greater. -/
def Later : List Frame → List Frame → Prop
  | [], [] => True
  | f :: fs, g :: gs => (f.header = g.header ∧ f.data = g.data ∧ f.integrity = g.integrity ∧ g.missing.toNat ≤ f.missing.toNat) ∧ Later fs gs
  | _, _ => False

theorem later_of {fs gs : List Frame} (hl : fs.length = gs.length) (h : ∀ (i : Nat) f g, fs[i]? = some f → gs[i]? = some g →
    f.header = g.header ∧ f.data = g.data ∧ f.integrity = g.integrity ∧ g.missing.toNat ≤ f.missing.toNat) : Later fs gs := by
  induction fs generalizing gs with
  | nil => cases gs with
    | nil => trivial
    | cons g gs => cases hl
  | cons f fs ih =>
    cases gs with
    | nil => cases hl
    | cons g gs => exact ⟨h 0 f g rfl rfl, ih (by simpa using hl) fun i f' g' a c => h (i + 1) f' g' a c⟩

theorem lastOfChannel_append (X Y : List Block) (v : U16) : lastOfChannel (X ++ Y) v = (lastOfChannel Y v).or (lastOfChannel X v) := by
  unfold lastOfChannel
  rw [List.filterMap_append, List.filter_append, List.getLast?_append]

theorem lastOfChannel_data {Y Y' : List Block} (h : Y'.map (·.data) = Y.map (·.data)) (v : U16) : lastOfChannel Y' v = lastOfChannel Y v := by
  have key : ∀ Z : List Block, Z.filterMap (fun c => VCDUHeader.decode c.data) = (Z.map (·.data)).filterMap VCDUHeader.decode := by
    intro Z; rw [List.filterMap_map]; rfl
  unfold lastOfChannel
  rw [key, key, h]

theorem getElem?_data {Y Y' : List Block} (h : Y'.map (·.data) = Y.map (·.data)) {i : Nat} {c : Block} (hc : Y'[i]? = some c) : ∃ d, Y[i]? = some d ∧ d.data = c.data := by
  have : (Y'.map (·.data))[i]? = some c.data := by rw [List.getElem?_map, hc]; rfl
  rw [h, List.getElem?_map] at this
  cases hd : Y[i]? with
  | none => rw [hd] at this; cases this
  | some d => rw [hd] at this; exact ⟨d, rfl, by simpa using this⟩

theorem take_data {Y Y' : List Block} (h : Y'.map (·.data) = Y.map (·.data)) (i : Nat) : (Y'.take i).map (·.data) = (Y.take i).map (·.data) := by
  rw [List.map_take, List.map_take, h]

/-- The frames of blocks `X` (whose headers can be decoded) followed by blocks with the data of `Y`. -/
theorem frames_concat (b : Build) (X Y Y' : List Block) (hX : ∀ c ∈ X, ∃ h, VCDUHeader.decode c.data = some h) (hY : Y'.map (·.data) = Y.map (·.data))
    (fA fB fJ : List Frame) (eA eB eJ : Option FrameDecoder.State) (hA : Collects (FrameDecoder.next b) (FrameDecoder.new X) fA eA)
    (hB : Collects (FrameDecoder.next b) (FrameDecoder.new Y) fB eB) (hJ : Collects (FrameDecoder.next b) (FrameDecoder.new (X ++ Y')) fJ eJ) :
    fA <+: fJ ∧ (fA.length < X.length → eA = none ∧ eJ = none ∧ fJ = fA) ∧
    (fA.length = X.length → ∃ F, fJ = fA ++ F ∧ F.length ≤ fB.length ∧ (eJ.isSome = true → F.length = fB.length ∧ eB.isSome = true) ∧
      ∀ (i : Nat) f g, F[i]? = some f → fB[i]? = some g → f.header = g.header ∧ f.data = g.data ∧ f.integrity = g.integrity ∧ g.missing.toNat ≤ f.missing.toNat ∧
        ((∃ g' ∈ fB.take i, g'.header.vcid = g.header.vcid) → f = g)) := by
  obtain ⟨fA', eA', a1, a2, a3, a4⟩ := C35_frames b X
  obtain ⟨rfl, rfl⟩ := hA.unique a1
  obtain ⟨fB', eB', b1, b2, b3, b4⟩ := C35_frames b Y
  obtain ⟨rfl, rfl⟩ := hB.unique b1
  obtain ⟨fJ', eJ', j1, j2, j3, j4⟩ := C35_frames b (X ++ Y')
  obtain ⟨rfl, rfl⟩ := hJ.unique j1
  have hlY : Y'.length = Y.length := by simpa using congrArg List.length hY
  obtain ⟨t, ht⟩ := hA.takes
  have hpre : fA <+: fJ := (C68_frame_decoder b X Y' _ _ ht).prefix hJ
  refine ⟨hpre, ?_, ?_⟩
  · intro hlt
    have eX : ∀ k, k < X.length → (X ++ Y')[k]? = X[k]? := fun k hk => List.getElem?_append_left hk
    have heA : eA = none := by
      cases eA with
      | none => rfl
      | some s =>
        rcases a4 with ⟨h, _⟩ | ⟨c, h1, h2, _⟩
        · omega
        · obtain ⟨h, hh⟩ := hX c (List.mem_of_getElem? h1)
          rw [h2] at hh; cases hh
    subst heA
    obtain ⟨c, h, q, k1, k2, k3, k4, k5⟩ := a4
    have hle : fJ.length ≤ fA.length := by
      rcases Nat.lt_or_ge fA.length fJ.length with h' | h'
      · have hf := j3 fA.length c _ (by rw [eX _ hlt]; exact k1) (List.getElem?_eq_getElem h')
        obtain ⟨f1, f2, f3, f4⟩ := hf
        rw [k2] at f1
        simp only [Option.some.injEq] at f1
        rw [← f1, List.take_append_of_le_length (by omega), k4] at f4
        simp only at f4
        rw [if_neg k3, k5] at f4
        cases f4
      · exact h'
    have heq : fJ = fA := (hpre.eq_of_length_le hle).symm
    refine ⟨rfl, ?_, heq⟩
    cases eJ with
    | none => rfl
    | some s =>
      rcases j4 with ⟨h', _⟩ | ⟨c', h1, h2, _⟩
      · rw [heq, List.length_append] at h'; omega
      · rw [heq, eX _ hlt] at h1
        obtain ⟨h, hh⟩ := hX c' (List.mem_of_getElem? h1)
        rw [h2] at hh; cases hh
  · intro hlen
    obtain ⟨F, rfl⟩ := hpre
    have eY : ∀ k, (X ++ Y')[X.length + k]? = Y'[k]? := by
      intro k; rw [List.getElem?_append_right (by omega)]; congr 1; omega
    have eF : ∀ k, (fA ++ F)[X.length + k]? = F[k]? := by
      intro k; rw [List.getElem?_append_right (by omega)]; congr 1; omega
    have eT : ∀ k, (X ++ Y').take (X.length + k) = X ++ Y'.take k := by
      intro k; rw [List.take_append, List.take_of_length_le (by omega)]; congr 2; omega
    have hlast : ∀ k v q, lastOfChannel (Y.take k) v = some q → lastOfChannel (X ++ Y'.take k) v = some q := by
      intro k v q hq
      rw [lastOfChannel_append, lastOfChannel_data (take_data hY k), hq]
      rfl
    have hFl : F.length ≤ Y.length := by rw [List.length_append, List.length_append] at j2; omega
    have hof : ∀ (k : Nat) f, F[k]? = some f → ∃ c, Y[k]? = some c ∧ VCDUHeader.decode c.data = some f.header ∧ f.data = c.data ∧ f.integrity = none ∧
        match lastOfChannel (X ++ Y'.take k) f.header.vcid with
        | none => f.missing = 0
        | some p => if f.header.vcid = 63 then f.missing = 0 else missingFrames b f.header.counter p.counter = .ret f.missing := by
      intro k f hf
      have hk : k < F.length := by
        rcases Nat.lt_or_ge k F.length with h | h
        · exact h
        · rw [List.getElem?_eq_none h] at hf; cases hf
      have hk' : k < Y'.length := by omega
      obtain ⟨c, c1, c2⟩ := getElem?_data hY (List.getElem?_eq_getElem hk')
      obtain ⟨f1, f2, f3, f4⟩ := j3 (X.length + k) _ f (by rw [eY]; exact List.getElem?_eq_getElem hk') (by rw [eF]; exact hf)
      rw [eT] at f4
      exact ⟨c, c1, by rw [c2]; exact f1, by rw [c2]; exact f2, f3, f4⟩
    have hle : F.length ≤ fB.length := by
      rcases Nat.lt_or_ge fB.length F.length with h | h
      · obtain ⟨c, c1, c2, c3, c4, c5⟩ := hof fB.length _ (List.getElem?_eq_getElem h)
        cases eB with
        | some s =>
          rcases b4 with ⟨h', _⟩ | ⟨c', h1, h2, _⟩
          · omega
          · rw [c1] at h1; cases h1
            rw [c2] at h2; cases h2
        | none =>
          obtain ⟨c', h', q, k1, k2, k3, k4, k5⟩ := b4
          rw [c1] at k1; cases k1
          rw [c2] at k2; cases k2
          rw [hlast _ _ _ k4] at c5
          simp only at c5
          rw [if_neg k3, k5] at c5
          cases c5
      · exact h
    refine ⟨F, rfl, hle, ?_, ?_⟩
    · intro he
      have hend : F.length = Y.length ∨ ∃ c, Y[F.length]? = some c ∧ VCDUHeader.decode c.data = none := by
        cases eJ with
        | none => cases he
        | some s =>
          rcases j4 with ⟨h', _⟩ | ⟨c', h1, h2, _⟩
          · rw [List.length_append, List.length_append] at h'; exact Or.inl (by omega)
          · rw [List.length_append, hlen, eY] at h1
            obtain ⟨d, d1, d2⟩ := getElem?_data hY h1
            exact Or.inr ⟨d, d1, by rw [d2]; exact h2⟩
      have hge : F.length = fB.length := by
        rcases hend with h | ⟨c, h1, h2⟩
        · omega
        · rcases Nat.lt_or_ge F.length fB.length with h' | h'
          · obtain ⟨f1, _⟩ := b3 _ _ _ h1 (List.getElem?_eq_getElem h')
            rw [h2] at f1; cases f1
          · omega
      refine ⟨hge, ?_⟩
      cases eB with
      | some s => rfl
      | none =>
        obtain ⟨c', h', q, k1, k2, _⟩ := b4
        rw [← hge] at k1
        rcases hend with h | ⟨c, h1, h2⟩
        · rw [h, List.getElem?_eq_none (by omega)] at k1; cases k1
        · rw [h1] at k1; cases k1
          rw [h2] at k2; cases k2
    · intro i f g hf hg
      obtain ⟨c, c1, c2, c3, c4, c5⟩ := hof i f hf
      obtain ⟨g1, g2, g3, g4⟩ := b3 i c g c1 hg
      have hh : f.header = g.header := by rw [c2] at g1; exact Option.some.inj g1
      have hmiss : ∀ q, lastOfChannel (Y.take i) g.header.vcid = some q → f.missing = g.missing := by
        intro q hq
        rw [hq] at g4
        rw [hh, hlast _ _ _ hq] at c5
        simp only at c5 g4
        by_cases h63 : g.header.vcid = 63
        · rw [if_pos h63] at c5 g4; rw [c5, g4]
        · rw [if_neg h63] at c5 g4
          rw [c5] at g4
          exact Outcome.ret.inj g4
      refine ⟨hh, by rw [c3, g2], by rw [c4, g3], ?_, ?_⟩
      · cases hq : lastOfChannel (Y.take i) g.header.vcid with
        | none => rw [hq] at g4; rw [g4]; exact Nat.zero_le _
        | some q => rw [hmiss q hq]; exact Nat.le_refl _
      · rintro ⟨g', hg', hv⟩
        obtain ⟨k, hk, rfl⟩ := List.getElem_of_mem hg'
        rw [List.length_take] at hk
        rw [List.getElem_take] at hv
        have hkB : k < fB.length := by omega
        have hkY : k < Y.length := by omega
        obtain ⟨k1, _⟩ := b3 k _ _ (List.getElem?_eq_getElem hkY) (List.getElem?_eq_getElem hkB)
        have hsome : ∃ q, lastOfChannel (Y.take i) g.header.vcid = some q := by
          refine Option.ne_none_iff_exists'.1 fun hn => ?_
          unfold lastOfChannel at hn
          rw [List.getLast?_eq_none_iff] at hn
          refine List.ne_nil_of_mem (a := fB[k].header) (List.mem_filter.2 ⟨List.mem_filterMap.2 ⟨Y[k], ?_, k1⟩, by simpa using hv⟩) hn
          exact List.mem_of_getElem? (i := k) (by rw [List.getElem?_take_of_lt (by omega)]; exact List.getElem?_eq_getElem hkY)
        obtain ⟨q, hq⟩ := hsome
        have := hmiss q hq
        cases f; cases g
        simp_all

open Pipeline

/-- The recording `A` ends with the end of a block: `ps` are its markers, `p` is the last of them. -/
structure EndsWithBlock (asm A : List U8) (len : Nat) (ps : List Nat) (p : Nat) : Prop where
  markers : Markers (bits asm) (bits A) (8 * len) 0 ps
  last : ps.getLast? = some p
  full : p + 8 * asm.length + 8 * len = 8 * A.length

/-- The header of every block of `A` can be decoded. -/
def HeadersReadable (derand : Bool) (A : List U8) (len : Nat) (ps : List Nat) : Prop :=
  ∀ p ∈ ps, ∀ d : List U8, bits d = ((bits A).drop (p + 32)).take (8 * len) → ∃ h, VCDUHeader.decode (if derand then Pn.derandomize d else d) = some h

theorem prep_data (derand : Bool) (b : Block) : (prep derand b).data = if derand then Pn.derandomize b.data else b.data := by
  cases derand <;> rfl

theorem blocks_of (r : Reader) (A : List U8) (len : Nat) (hr : Smooth r A) (ps : List Nat) (p : Nat) (he : EndsWithBlock Sync.ASM A len ps p)
    (items : List (Except Error Block)) (e : Option Sync.Iter) (h : Collects Sync.next (Sync.iter r Sync.ASM len) items e) :
    (oks items).map .ok = items ∧ items.length = ps.length ∧ ∀ blk ∈ oks items, ∃ q ∈ ps, bits blk.data = ((bits A).drop (q + 32)).take (8 * len) := by
  have hasm : Sync.ASM ≠ [] := by simp [Sync.ASM]
  obtain ⟨a', s1, ps', a1, a2, a3⟩ := Sync.run_iter r A Sync.ASM hasm len hr
  obtain rfl := Sync.markers_unique he.markers a2
  obtain ⟨rfl, _⟩ := h.unique a1
  have hl := Sync.itemsOK_length a3
  have hroom := markers_room (Sync.bits_ne_nil hasm) he.markers
  have hp := he.last
  have hend := he.full
  have hfull : ∀ q ∈ ps, q + 8 * Sync.ASM.length + 8 * len ≤ 8 * A.length := by
    intro q hq
    obtain ⟨k, hk, rfl⟩ := List.getElem_of_mem hq
    rcases Nat.lt_or_ge (k + 1) ps.length with h1 | h1
    · have x := hroom.2 k _ _ (List.getElem?_eq_getElem hk) (List.getElem?_eq_getElem h1)
      have y := (hroom.1 _ (List.getElem_mem h1)).2
      simp only [bits_length] at x y
      omega
    · rw [List.getLast?_eq_getElem?, show ps.length - 1 = k by omega, List.getElem?_eq_getElem hk] at hp
      cases hp
      omega
  have hall : ∀ x ∈ items, ∃ blk, x = .ok blk ∧ ∃ q ∈ ps, bits blk.data = ((bits A).drop (q + 32)).take (8 * len) := by
    intro x hx
    obtain ⟨j, hj, rfl⟩ := List.getElem_of_mem hx
    have hj' : ps[j]? = some ps[j] := List.getElem?_eq_getElem (by omega)
    obtain ⟨it, e1, e2⟩ := Sync.itemsOK_get a3 hj'
    rw [List.getElem?_eq_getElem hj] at e1
    simp only [Option.some.injEq] at e1
    unfold Sync.ItemOK at e2
    rw [if_pos (hfull _ (List.getElem_mem _))] at e2
    obtain ⟨data, _, d2, rfl⟩ := e2
    exact ⟨_, e1, _, List.getElem_mem _, d2⟩
  have hok := oks_all items fun x hx => (hall x hx).imp fun _ h => h.1
  refine ⟨hok, hl, fun blk hb => ?_⟩
  obtain ⟨blk', e', h'⟩ := hall (.ok blk) (by rw [← hok]; exact List.mem_map_of_mem hb)
  cases e'
  exact h'

/-- C106: recordings of CADUs one after the other, where the first ends with the end of a block and the headers of its blocks can be decoded. The frames of the first come out first; if
decoding it does not panic, each of its blocks gives a frame, and then come the frames of the second, where only the number of missing frames of the first frame of a virtual channel can
change (it can also make decoding panic, C34, and then nothing more comes). -/
theorem C106_pipeline (b : Build) (c : Config) (rA rB r : Reader) (A B : List U8) (hA : Smooth rA A) (hB : Smooth rB B) (hr : Smooth r (A ++ B))
    (ps : List Nat) (p : Nat) (he : EndsWithBlock Sync.ASM A c.blockLength ps p) (hd : HeadersReadable c.derandomize A c.blockLength ps)
    (fA fB fJ : List Frame) (eA eB eJ : Bool) (oA : Outputs b c rA fA eA) (oB : Outputs b c rB fB eB) (oJ : Outputs b c r fJ eJ) :
    (eA = false → eJ = false ∧ fJ = fA) ∧
    (eA = true → fA.length = ps.length ∧ ∃ F, fJ = fA ++ F ∧ F.length ≤ fB.length ∧ (eJ = true → F.length = fB.length ∧ eB = true) ∧
      ∀ (i : Nat) f g, F[i]? = some f → fB[i]? = some g → f.header = g.header ∧ f.data = g.data ∧ f.integrity = g.integrity ∧ g.missing.toNat ≤ f.missing.toNat ∧
        ((∃ g' ∈ fB.take i, g'.header.vcid = g.header.vcid) → f = g)) := by
  have hasm : Sync.ASM ≠ [] := by simp [Sync.ASM]
  obtain ⟨iA, sA, xA, a1, a2, rfl⟩ := outputs_blocks hA oA
  obtain ⟨iB, sB, xB, b1, b2, rfl⟩ := outputs_blocks hB oB
  obtain ⟨iJ, sJ, xJ, j1, j2, rfl⟩ := outputs_blocks hr oJ
  obtain ⟨k1, k2, k3⟩ := blocks_of rA A c.blockLength hA ps p he iA _ a1
  have hl : (oks iA).length = ps.length := by rw [← k2, ← congrArg List.length k1, List.length_map]
  have hj := C106_synchronize rA rB r A B Sync.ASM c.blockLength hA hB hr hasm ps he.markers p he.last he.full iA iB iJ _ _ _ a1 b1 j1
  subst hj
  rw [oks_append', List.map_append] at j2
  have hX : ∀ x ∈ (oks iA).map (prep c.derandomize), ∃ h, VCDUHeader.decode x.data = some h := by
    intro x hx
    obtain ⟨y, hy, rfl⟩ := List.mem_map.1 hx
    obtain ⟨q, hq, hbits⟩ := k3 y hy
    rw [prep_data]
    exact hd q hq _ hbits
  have hdata : ∀ l : List Block, (l.map (prep c.derandomize)).map (·.data) = (l.map (·.data)).map fun d => if c.derandomize then Pn.derandomize d else d := by
    intro l
    rw [List.map_map, List.map_map]
    exact List.map_congr_left fun x _ => prep_data _ _
  obtain ⟨h1, h2, h3⟩ := frames_concat b _ _ _ hX (by rw [hdata, hdata, following_data]) fA fB fJ xA xB xJ a2 b2 j2
  rw [List.length_map, hl] at h2 h3
  have hle : fA.length ≤ ps.length := by
    obtain ⟨t, ht⟩ := a2.takes
    have := frames_length b _ _ _ _ ht
    rw [List.length_map, hl] at this
    exact this
  constructor
  · intro hf
    rcases Nat.lt_or_ge fA.length ps.length with h | h
    · obtain ⟨q1, q2, q3⟩ := h2 h
      exact ⟨by rw [q2]; rfl, q3⟩
    · exfalso
      obtain ⟨fs, e, w1, w2, w3, w4⟩ := C35_frames b ((oks iA).map (prep c.derandomize))
      obtain ⟨rfl, rfl⟩ := a2.unique w1
      cases xA with
      | some s => cases hf
      | none =>
        obtain ⟨c', h', q, k1, _⟩ := w4
        rw [List.getElem?_eq_none (by rw [List.length_map, hl]; omega)] at k1
        cases k1
  · intro ht
    rcases Nat.lt_or_ge fA.length ps.length with h | h
    · obtain ⟨q1, _⟩ := h2 h
      rw [q1] at ht; cases ht
    · exact ⟨by omega, h3 (by omega)⟩

/-! ## The `framing` command -/

open Framing

/-- The counters of `t` are the sums of those of `x` and `y`, except that more frames can be missing. -/
structure SumOf (t x y : Tally) : Prop where
  frames : t.frames = x.frames + y.frames
  bytes : t.bytes = x.bytes + y.bytes
  missing : x.missing + y.missing ≤ t.missing
  corrected : t.corrected = x.corrected + y.corrected
  uncorrectable : t.uncorrectable = x.uncorrectable + y.uncorrectable
  ok : t.ok = x.ok + y.ok
  error : t.error = x.error + y.error
  notPerformed : t.notPerformed = x.notPerformed + y.notPerformed

/-- The line of virtual channel `v` in the summary (all counters 0 if there is none). -/
def line (s : Framing.Summary) (v : U16) : Tally := ((s.vcids.find? fun i => i.vcid == v).map (·.tally)).getD .default

theorem later_filter (P : Frame → Bool) (hP : ∀ f g : Frame, f.header = g.header → f.integrity = g.integrity → P f = P g) : ∀ {fs gs : List Frame}, Later fs gs →
    Later (fs.filter P) (gs.filter P) := by
  intro fs
  induction fs with
  | nil => intro gs h; cases gs <;> first | trivial | exact h.elim
  | cons f fs ih =>
    intro gs h
    cases gs with
    | nil => exact h.elim
    | cons g gs =>
      rw [List.filter_cons, List.filter_cons, hP f g h.1.1 h.1.2.2.1]
      split
      · exact ⟨h.1, ih h.2⟩
      · exact ih h.2

theorem later_data (n : Nat) : ∀ {fs gs : List Frame}, Later fs gs → fs.map (fun f => f.data.take n) = gs.map (fun f => f.data.take n) := by
  intro fs
  induction fs with
  | nil => intro gs h; cases gs <;> first | rfl | exact h.elim
  | cons f fs ih =>
    intro gs h
    cases gs with
    | nil => exact h.elim
    | cons g gs => rw [List.map_cons, List.map_cons, h.1.2.1, ih h.2]

theorem later_counts : ∀ {fs gs : List Frame}, Later fs gs → fs.length = gs.length ∧ (fs.map fun f => f.data.length).sum = (gs.map fun f => f.data.length).sum ∧
    (gs.map fun f => f.missing.toNat).sum ≤ (fs.map fun f => f.missing.toNat).sum ∧ ∀ P : Option Integrity → Bool, fs.countP (fun f => P f.integrity) = gs.countP (fun f => P f.integrity) := by
  intro fs
  induction fs with
  | nil => intro gs h; cases gs <;> first | exact ⟨rfl, rfl, Nat.le_refl _, fun _ => rfl⟩ | exact h.elim
  | cons f fs ih =>
    intro gs h
    cases gs with
    | nil => exact h.elim
    | cons g gs =>
      obtain ⟨i1, i2, i3, i4⟩ := ih h.2
      obtain ⟨h1, h2, h3, h4⟩ := h.1
      simp only [List.length_cons, List.map_cons, List.sum_cons, List.countP_cons]
      refine ⟨by omega, by rw [h2, i2], by omega, fun P => by rw [i4 P, h3]⟩

theorem later_sum {xs fs gs : List Frame} (h : Later fs gs) {t x y : Tally} (ht : Tallies t (xs ++ fs)) (hx : Tallies x xs) (hy : Tallies y gs) : SumOf t x y := by
  obtain ⟨h1, h2, h3, h4⟩ := later_counts h
  obtain ⟨t1, t2, t3, t4, t5, t6, t7, t8⟩ := ht
  obtain ⟨x1, x2, x3, x4, x5, x6, x7, x8⟩ := hx
  obtain ⟨y1, y2, y3, y4, y5, y6, y7, y8⟩ := hy
  rw [List.length_append] at t1
  rw [List.map_append, List.sum_append] at t2 t3
  rw [List.countP_append] at t4 t5 t6 t7 t8
  have k4 := h4 fun i => decide (i = some .ok)
  have k5 := h4 fun i => decide (i = some .corrected)
  have k6 := h4 fun i => decide (i = some .uncorrectable ∨ i = some .notCorrected)
  have k7 := h4 fun i => decide (i = some .failed)
  have k8 := h4 fun i => decide (i = none)
  constructor <;> omega

theorem later_job (k : Codec) (o : RS.Opts) : ∀ {fs gs us ws : List Frame}, Later fs gs → us.map Outcome.ret = fs.map (RS.job k o) → ws.map Outcome.ret = gs.map (RS.job k o) →
    Later us ws := by
  intro fs
  induction fs with
  | nil =>
    intro gs us ws h hu hw
    cases gs with
    | nil =>
      simp only [List.map_nil, List.map_eq_nil_iff] at hu hw
      subst hu hw
      trivial
    | cons g gs => exact h.elim
  | cons f fs ih =>
    intro gs us ws h hu hw
    cases gs with
    | nil => exact h.elim
    | cons g gs =>
      cases us with
      | nil => cases hu
      | cons u us =>
        cases ws with
        | nil => cases hw
        | cons w ws =>
          simp only [List.map_cons, List.cons.injEq] at hu hw
          refine ⟨?_, ih h.2 hu.2 hw.2⟩
          obtain ⟨h1, h2, h3, h4⟩ := h.1
          have hu := hu.1
          have hw := hw.1
          unfold RS.job at hu hw
          rw [h1, h2] at hu
          by_cases hv : g.header.vcid ≠ VCDUHeader.FILL
          · rw [if_pos hv] at hu hw
            cases hp : RS.perform k o.config g.data with
            | panic => rw [hp] at hu; cases hu
            | ret x =>
              rw [hp] at hu hw
              cases x with
              | error e => cases hu
              | ok y =>
                obtain ⟨i, d⟩ := y
                have hu := Outcome.ret.inj hu
                have hw := Outcome.ret.inj hw
                subst hu hw
                exact ⟨rfl, rfl, rfl, h4⟩
          · rw [if_neg hv] at hu hw
            have hu := Outcome.ret.inj hu
            have hw := Outcome.ret.inj hw
            subst hu hw
            exact ⟨h1, h2, h3, h4⟩

theorem line_tallies {fs : List Frame} {s : Framing.Summary} (h : FramingReport fs s) (v : U16) : Tallies (line s v) (ofVcid fs v) := by
  unfold line
  cases hf : s.vcids.find? fun i => i.vcid == v with
  | none =>
    have : ofVcid fs v = [] := by
      refine Decidable.byContradiction fun hn => ?_
      obtain ⟨i, hi, e⟩ := (h.channels v).2 ((ofVcid_ne_nil fs v).1 hn)
      have := List.find?_eq_none.1 hf i hi
      simp [e] at this
    rw [this]
    exact ⟨rfl, rfl, rfl, rfl, rfl, rfl, rfl, rfl⟩
  | some i =>
    have hi := List.mem_of_find?_eq_some hf
    have hv : i.vcid = v := by simpa using List.find?_some hf
    have := h.counts i hi
    rw [hv] at this
    exact this

/-- What the command makes of frames that are followed by others. -/
theorem finishes_concat (a : Args) (xs F gs : List Frame) (h : Later F gs) (sA sB sJ : Framing.Summary) (wA wB wJ : List (List U8)) (hA : Finishes a xs sA wA)
    (hB : Finishes a gs sB wB) (hJ : Finishes a (xs ++ F) sJ wJ) :
    wJ = wA ++ wB ∧ SumOf sJ.tally sA.tally sB.tally ∧ ∀ v, SumOf (line sJ v) (line sA v) (line sB v) := by
  obtain ⟨a1, a2⟩ := (C57_summary a xs).1 sA wA hA
  obtain ⟨b1, b2⟩ := (C57_summary a gs).1 sB wB hB
  obtain ⟨j1, j2⟩ := (C57_summary a (xs ++ F)).1 sJ wJ hJ
  have hap : wanted a (xs ++ F) = wanted a xs ++ wanted a F := List.filter_append ..
  have hw : Later (wanted a F) (wanted a gs) := later_filter _ (fun f g e _ => by
    have : Wanted a f ↔ Wanted a g := by unfold Wanted; rw [e]
    exact decide_eq_decide.2 this) h
  rw [hap] at j1 j2
  refine ⟨?_, later_sum hw j1.total a1.total b1.total, fun v => ?_⟩
  · rw [j2, a2, b2]
    cases a.output with
    | false => rfl
    | true =>
      simp only [if_true]
      rw [List.filter_append, List.map_append, later_data _ (later_filter _ (fun f g _ e => by
        have : Acceptable f ↔ Acceptable g := by unfold Acceptable; rw [e]
        exact decide_eq_decide.2 this) hw)]
  · have e : ofVcid (wanted a xs ++ wanted a F) v = ofVcid (wanted a xs) v ++ ofVcid (wanted a F) v := List.filter_append ..
    have hj := line_tallies j1 v
    rw [e] at hj
    exact later_sum (later_filter _ (fun f g e _ => by rw [e]) hw) hj (line_tallies a1 v) (line_tallies b1 v)

/-- C106: `framing` of the two recordings one after the other writes what it writes for the first and then what it writes for the second, and counts the frames of both, in total and per
virtual channel; only more of them can be missing. (`hJ`: no frame counter makes decoding panic, C34.) -/
theorem C106_framing (b : Build) (k : Codec) (a : Args) (workers : Nat) (rA rB r : Reader) (A B : List U8) (hA : Smooth rA A) (hB : Smooth rB B) (hr : Smooth r (A ++ B))
    (ps : List Nat) (p : Nat) (he : EndsWithBlock Sync.ASM A (config a workers).blockLength ps p)
    (hd : HeadersReadable (config a workers).derandomize A (config a workers).blockLength ps) (hJ : ∃ frames, Outputs b (config a workers) r frames true)
    (sA sB sJ : Framing.Summary) (wA wB wJ : List (List U8)) (RA : Framing.Runs b k a workers rA sA wA) (RB : Framing.Runs b k a workers rB sB wB)
    (RJ : Framing.Runs b k a workers r sJ wJ) :
    wJ = wA ++ wB ∧ SumOf sJ.tally sA.tally sB.tally ∧ ∀ v, SumOf (line sJ v) (line sA v) (line sB v) := by
  obtain ⟨fJ, oJ⟩ := hJ
  have key : ∀ fA fB eA eB, Outputs b (config a workers) rA fA eA → Outputs b (config a workers) rB fB eB → ∃ F, fJ = fA ++ F ∧ Later F fB := by
    intro fA fB eA eB oA oB
    obtain ⟨h1, h2⟩ := C106_pipeline b (config a workers) rA rB r A B hA hB hr ps p he hd fA fB fJ eA eB true oA oB oJ
    cases eA with
    | false => cases (h1 rfl).1
    | true =>
      obtain ⟨_, F, f1, f2, f3, f4⟩ := h2 rfl
      refine ⟨F, f1, later_of (f3 rfl).1 fun i f g hf hg => ?_⟩
      obtain ⟨q1, q2, q3, q4, _⟩ := f4 i f g hf hg
      exact ⟨q1, q2, q3, q4⟩
  cases RA with
  | plain n1 o1 u1 =>
    cases RB with
    | rs n2 => rw [n1] at n2; cases n2
    | plain n2 o2 u2 =>
      cases RJ with
      | rs n3 => rw [n1] at n3; cases n3
      | plain n3 o3 u3 =>
        obtain ⟨rfl, _⟩ := C52_deterministic b _ r _ _ _ _ oJ o3
        obtain ⟨F, rfl, hL⟩ := key _ _ _ _ o1 o2
        exact finishes_concat a _ F _ hL sA sB sJ wA wB wJ u1 u2 u3
  | @rs il stA _ _ n1 o1 e1 u1 =>
    cases RB with
    | plain n2 => rw [n1] at n2; cases n2
    | @rs _ stB _ _ n2 o2 e2 u2 =>
      cases RJ with
      | plain n3 => rw [n1] at n3; cases n3
      | @rs _ stJ _ _ n3 o3 e3 u3 =>
        obtain ⟨oo, pp, fA, xA, c1, c2, c3⟩ := o1
        obtain ⟨oo2, pp2, fB, xB, d1, d2, d3⟩ := o2
        obtain ⟨oo3, pp3, fJ', xJ, g1, g2, g3⟩ := o3
        obtain ⟨rfl, _⟩ := C52_deterministic b _ r _ _ _ _ oJ g2
        rw [c1] at d1 g1
        cases d1; cases g1
        obtain ⟨F, rfl, hL⟩ := key _ _ _ _ c2 d2
        have q1 := C42_none _ _ _ _ c3 e1
        have q2 := C42_none _ _ _ _ d3 e2
        have q3 := C42_none _ _ _ _ g3 e3
        rw [List.map_append] at q3
        obtain ⟨u, w, hs, hu, hw⟩ := List.map_eq_append_iff.1 q3
        rw [← q1] at hu
        have hu' : u = stA.got := by
          have hinj : ∀ (x y : List Frame), x.map Outcome.ret = y.map Outcome.ret → x = y := by
            intro x
            induction x with
            | nil => intro y h; cases y with
              | nil => rfl
              | cons _ _ => cases h
            | cons a x ih =>
              intro y h
              cases y with
              | nil => cases h
              | cons c y =>
                simp only [List.map_cons, List.cons.injEq, Outcome.ret.injEq] at h
                rw [h.1, ih y h.2]
          exact hinj _ _ hu
        subst hu'
        rw [hs] at u3
        exact finishes_concat a _ w _ (later_job k _ hL hw q2) sA sB sJ wA wB wJ u1 u2 u3

/-! Two recordings of one CADU each (channel 43, counters 5 and 6), randomized. -/

def exRecA : List U8 := [0x1a#8, 0xcf#8, 0xfc#8, 0x1d#8, 0x98#8, 0x23#8, 0x0e#8, 0xc0#8, 0x9f#8, 0x0d#8, 0x71#8, 0xbe#8]
def exRecB : List U8 := [0x1a#8, 0xcf#8, 0xfc#8, 0x1d#8, 0x98#8, 0x23#8, 0x0e#8, 0xc0#8, 0x9c#8, 0x0d#8, 0x73#8, 0xb8#8]

theorem oneChunk_smooth (bs : List U8) (h : bs ≠ []) : Smooth ⟨[.data bs], .eof⟩ bs :=
  ⟨by intro e he; simp only [List.mem_singleton] at he; exact ⟨_, h, he⟩, by simp [evBytes, Ev.bytes], rfl⟩

theorem exRecA_ends : EndsWithBlock Sync.ASM exRecA 8 [0] 0 := by
  refine ⟨.cons ⟨by omega, List.prefix_iff_eq_take.2 (by decide +kernel), by omega⟩ (.none ?_), rfl, by decide⟩
  intro i hi hoc
  have := hoc.length_le
  rw [List.length_drop, show (bits Sync.ASM).length = 32 from by decide, show (bits exRecA).length = 96 from by decide +kernel] at this
  rw [show (bits Sync.ASM).length = 32 from by decide] at hi
  omega

theorem exRecA_readable : HeadersReadable true exRecA 8 [0] := by
  intro p hp d hd
  simp only [List.mem_singleton] at hp
  subst hp
  have : d = exRecA.drop 4 := bits_inj (by rw [hd]; decide +kernel)
  subst this
  exact Option.isSome_iff_exists.1 (by decide +kernel)

theorem exRec_outputs (b : Build) (S : List U8) (ds : List (List U8)) (hne : S ≠ []) (hds : ds ≠ []) (h8 : ∀ d ∈ ds, d.length = 8)
    (hdec : ∀ d ∈ ds, (VCDUHeader.decode d).isSome = true) (hS : bits S = [] ++ ds.flatMap (fun d => bits Sync.ASM ++ bits (Pn.derandomize d)) ++ [])
    (hinc : ∀ i d h p, ds[i]? = some d → VCDUHeader.decode d = some h →
      lastOfChannel ((ds.take i).map blk) h.vcid = some p → p.counter.toNat < h.counter.toNat) :
    ∃ frames, Outputs b (Config.new 8) ⟨[.data S], .eof⟩ frames true ∧ frames.map (·.data) = ds := by
  have hl : (bits S).length = ds.length * 96 := by
    rw [hS, List.nil_append, List.append_nil]
    clear hS hinc hdec hds
    induction ds with
    | nil => rfl
    | cons d ds ih =>
      rw [List.flatMap_cons, List.length_append, ih (fun x hx => h8 x (by simp [hx])), List.length_append, bits_length, bits_length]
      have : (Pn.derandomize d).length = 8 := by simpa [Pn.derandomize] using h8 d (by simp)
      rw [this]
      simp [Sync.ASM]
      omega
  obtain ⟨frames, h1, h2, _⟩ := C52_increasing b true ⟨[.data S], .eof⟩ S 8 [] [] ds (oneChunk_smooth S hne) hds h8
    (fun d hd => Option.isSome_iff_exists.1 (hdec d hd)) hS
    ⟨by simp, by
      rw [hS]
      cases ds with
      | nil => exact absurd rfl hds
      | cons d ds =>
        exact ⟨bits (Pn.derandomize d) ++ ds.flatMap (fun d => bits Sync.ASM ++ bits (Pn.derandomize d)), by
          rw [List.nil_append, List.append_nil, List.flatMap_cons, List.append_assoc]; rfl⟩, by simp⟩
    (by
      intro i hi hoc
      have := hoc.length_le
      rw [List.length_drop, show (bits Sync.ASM).length = 32 from by decide, hl] at this
      simp only [List.length_nil] at hi
      omega)
    hinc
  exact ⟨frames, h1, h2⟩

example (b : Build) : ∃ fA fB fJ, Outputs b (Config.new 8) ⟨[.data exRecA], .eof⟩ fA true ∧ Outputs b (Config.new 8) ⟨[.data exRecB], .eof⟩ fB true ∧
    Outputs b (Config.new 8) ⟨[.data (exRecA ++ exRecB)], .eof⟩ fJ true ∧ fA.map (·.data) ++ fB.map (·.data) = exPipeFrames ∧
    ∃ F, fJ = fA ++ F ∧ F.length = 1 := by
  obtain ⟨fA, a1, a2⟩ := exRec_outputs b exRecA (exPipeFrames.take 1) (by simp [exRecA]) (by simp [exPipeFrames]) (by decide) (by decide +kernel) (by decide +kernel)
    (by intro i d h p hd _ hp
        match i with
        | 0 => simp [lastOfChannel] at hp
        | n + 1 => simp [exPipeFrames] at hd)
  obtain ⟨fB, b1, b2⟩ := exRec_outputs b exRecB (exPipeFrames.drop 1) (by simp [exRecB]) (by simp [exPipeFrames]) (by decide) (by decide +kernel) (by decide +kernel)
    (by intro i d h p hd _ hp
        match i with
        | 0 => simp [lastOfChannel] at hp
        | n + 1 => simp [exPipeFrames] at hd)
  obtain ⟨fJ, j1, j2⟩ := exRec_outputs b (exRecA ++ exRecB) exPipeFrames (by simp [exRecA]) (by simp [exPipeFrames]) (by decide) (by decide +kernel) (by decide +kernel)
    (by intro i d h p hd hh hp
        match i with
        | 0 => simp [lastOfChannel] at hp
        | 1 =>
          have hd' : d = [0x67#8, 0x6b#8, 0#8, 0#8, 6#8, 0#8, 3#8, 4#8] := by simpa [exPipeFrames] using hd.symm
          subst hd'
          have e1 : VCDUHeader.decode [0x67#8, 0x6b#8, 0#8, 0#8, 6#8, 0#8, 3#8, 4#8] = some h := hh
          have e2 : (VCDUHeader.decode [0x67#8, 0x6b#8, 0#8, 0#8, 6#8, 0#8, 3#8, 4#8]).map (fun h => (h.vcid, h.counter)) = some (43#16, 6#32) := by decide +kernel
          rw [e1] at e2
          simp only [Option.map_some, Option.some.injEq, Prod.mk.injEq] at e2
          have e3 : (lastOfChannel ((exPipeFrames.take 1).map blk) 43#16).map (·.counter) = some 5#32 := by decide +kernel
          rw [e2.1] at hp
          rw [hp] at e3
          simp only [Option.map_some, Option.some.injEq] at e3
          rw [e2.2, e3]; decide
        | n + 2 => simp [exPipeFrames] at hd)
  obtain ⟨_, k⟩ := C106_pipeline b (Config.new 8) _ _ _ exRecA exRecB (oneChunk_smooth _ (by simp [exRecA])) (oneChunk_smooth _ (by simp [exRecB]))
    (oneChunk_smooth _ (by simp [exRecA])) [0] 0 exRecA_ends exRecA_readable fA fB fJ true true true a1 b1 j1
  obtain ⟨_, F, f1, f2, f3, _⟩ := k rfl
  refine ⟨fA, fB, fJ, a1, b1, j1, by rw [a2, b2, List.take_append_drop], F, f1, ?_⟩
  rw [(f3 rfl).1, ← List.length_map (f := (·.data)), b2]
  rfl

end Ccsds
