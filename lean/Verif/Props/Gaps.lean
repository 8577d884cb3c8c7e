import Verif.Props.EndToEnd
/-!
# C28, C52 with anything between the frames
-/
namespace Ccsds
open Spec Pipeline

/-- The bits of a stream: for every unit some bits (noise, the remains of lost frames), the marker, a block. -/
def unitBits (asm : List U8) (units : List (List Bool × List U8)) : List Bool := units.flatMap fun u => u.1 ++ bits asm ++ bits u.2

theorem unitBits_append (asm : List U8) (a c : List (List Bool × List U8)) : unitBits asm (a ++ c) = unitBits asm a ++ unitBits asm c := by
  simp [unitBits]

/-- C28 with gaps: blocks of `len` bytes, each behind a marker, with arbitrary bits before each marker, in which (and across whose ends) no marker can be found, and no marker after
the last block: the synchronizer yields exactly these blocks. -/
theorem C28_gaps (r : Reader) (S asm : List U8) (len : Nat) (hr : Smooth r S) (hasm : asm ≠ [])
    (units : List (List Bool × List U8)) (post : List Bool) (hlen : ∀ u ∈ units, u.2.length = len) (hS : bits S = unitBits asm units ++ post)
    (hfirst : ∀ before u after, units = before ++ u :: after →
      FirstAt (bits asm) (bits S) (unitBits asm before).length ((unitBits asm before).length + u.1.length))
    (hlast : ∀ i, (unitBits asm units).length ≤ i → ¬ Occurs (bits asm) (bits S) i) :
    ∃ (items : List (Except Error Block)) (s' : Sync.Iter), Collects Sync.next (Sync.iter r asm len) items (some s') ∧ items.length = units.length ∧
      ∀ (k : Nat) (u : List Bool × List U8), units[k]? = some u → ∃ blk : Block, items[k]? = some (.ok blk) ∧ blk.data = u.2 := by
  let pos : Nat → Nat := fun k => (unitBits asm (units.take k)).length + ((units[k]?).map (·.1.length)).getD 0
  have hmark : ∀ (n k : Nat), k + n = units.length →
      Markers (bits asm) (bits S) (8 * len) (unitBits asm (units.take k)).length ((List.range' k n).map pos) := by
    intro n
    induction n with
    | zero =>
      intro k hk
      refine .none ?_
      rw [List.take_of_length_le (by omega)]
      exact hlast
    | succ n ih =>
      intro k hk
      have hlt : k < units.length := by omega
      have hu := List.getElem?_eq_getElem hlt
      have hsplit : units = units.take k ++ units[k] :: units.drop (k + 1) := by
        rw [List.getElem_cons_drop, List.take_append_drop]
      have hf := hfirst _ _ _ hsplit
      have hnext := ih (k + 1) (by omega)
      have hlen' : (unitBits asm (units.take (k + 1))).length = pos k + (bits asm).length + 8 * len := by
        rw [List.take_add_one, hu, unitBits_append, List.length_append]
        simp only [Option.toList_some, unitBits, List.flatMap_cons, List.flatMap_nil, List.append_nil, List.length_append, pos, hu, Option.map_some, Option.getD_some, bits_length,
          hlen _ (List.getElem_mem hlt)]
        omega
      rw [hlen'] at hnext
      rw [List.range'_succ, List.map_cons]
      refine .cons ?_ hnext
      simpa [pos, hu] using hf
  have hps := hmark units.length 0 (by omega)
  rw [List.take_zero] at hps
  have hps : Markers (bits asm) (bits S) (8 * len) 0 ((List.range' 0 units.length).map pos) := hps
  obtain ⟨items, s', ps', h1, h2, h3⟩ := Sync.run_iter r S asm hasm len hr
  obtain rfl := Sync.markers_unique hps h2
  refine ⟨items, s', h1, by rw [Sync.itemsOK_length h3]; simp, ?_⟩
  intro k u hu
  have hlt := (List.getElem?_eq_some_iff.1 hu).1
  have hget : units[k] = u := (List.getElem?_eq_some_iff.1 hu).2
  have hsplit : units = units.take k ++ u :: units.drop (k + 1) := by
    rw [← hget, List.getElem_cons_drop, List.take_append_drop]
  have hpk : ((List.range' 0 units.length).map pos)[k]? = some (pos k) := by
    rw [List.getElem?_map, List.getElem?_range' hlt]; simp
  have hpos : pos k = (unitBits asm (units.take k)).length + u.1.length := by simp [pos, hu]
  have hbits : bits S = unitBits asm (units.take k) ++ u.1 ++ bits asm ++ (bits u.2 ++ (unitBits asm (units.drop (k + 1)) ++ post)) := by
    rw [hS]
    conv => lhs; rw [hsplit]
    rw [unitBits_append]
    simp [unitBits]
  have hul := hlen u (List.mem_of_getElem? hu)
  have hfull : pos k + 8 * asm.length + 8 * len ≤ 8 * S.length := by
    have := congrArg List.length hbits
    simp only [bits_length, List.length_append, hul] at this
    omega
  obtain ⟨blk, b1, b2, b3, _⟩ := C27_block_bits r S asm len hr hasm _ hps items _ h1 k _ hpk hfull
  refine ⟨blk, b1, ?_⟩
  apply bits_inj
  rw [b3, hbits, List.drop_left' (by simp only [List.length_append, bits_length]; omega), List.take_left' (by rw [bits_length, hul])]

/-- The stream carries the (optionally randomized) blocks of `units`, each behind a marker and after any bits without marker; no marker follows the last. -/
structure CarriesGaps (derand : Bool) (S : List U8) (len : Nat) (units : List (List Bool × List U8)) (post : List Bool) : Prop where
  length : ∀ u ∈ units, u.2.length = len
  bits : Spec.bits S = (units.flatMap fun u => u.1 ++ Spec.bits Sync.ASM ++ Spec.bits (if derand then Pn.derandomize u.2 else u.2)) ++ post
  first : ∀ before u after, units = before ++ u :: after →
    FirstAt (Spec.bits Sync.ASM) (Spec.bits S) (unitBits Sync.ASM before).length ((unitBits Sync.ASM before).length + u.1.length)
  last : ∀ i, (unitBits Sync.ASM units).length ≤ i → ¬ Occurs (Spec.bits Sync.ASM) (Spec.bits S) i

/-- C52 with gaps and any headers: blocks with anything between them (the remains of lost frames, noise, or nothing): the pipeline without Reed–Solomon yields a frame for every
block before the first whose header cannot be decoded, and nothing after it. -/
theorem C52_until (b : Build) (derand : Bool) (r : Reader) (S : List U8) (len : Nat) (units : List (List Bool × List U8)) (post : List Bool)
    (hr : Smooth r S) (hS : CarriesGaps derand S len units post) :
    ∃ frames ended, Outputs b ⟨derand, none, len⟩ r frames ended ∧ frames.map (·.data) = (units.map (·.2)).take frames.length ∧
      (∀ i d f, (units.map (·.2))[i]? = some d → frames[i]? = some f → FrameOf b (((units.map (·.2)).take i).map blk) (blk d) f) ∧
      (ended = true → frames.length = (units.map (·.2)).length ∨ ∃ d, (units.map (·.2))[frames.length]? = some d ∧ VCDUHeader.decode d = none) ∧
      (ended = false → b.overflowChecks = true ∧ ∃ d h p, (units.map (·.2))[frames.length]? = some d ∧ VCDUHeader.decode d = some h ∧
        lastOfChannel (((units.map (·.2)).take frames.length).map blk) h.vcid = some p ∧ p.counter.toNat = 2 ^ 24 - 1 ∧ h.counter.toNat < 2 ^ 24 - 1 ∧ h.vcid ≠ 63) := by
  let rnd := fun d : List U8 => if derand then Pn.derandomize d else d
  let ru := fun u : List Bool × List U8 => (u.1, rnd u.2)
  have hrl : ∀ d, (rnd d).length = d.length := by
    intro d; show (if derand then Pn.derandomize d else d).length = d.length
    split
    · exact C31_length d
    · rfl
  have hlenb : ∀ l : List (List Bool × List U8), (unitBits Sync.ASM (l.map ru)).length = (unitBits Sync.ASM l).length := by
    intro l
    induction l with
    | nil => rfl
    | cons u l ih =>
      simp only [unitBits, List.map_cons, List.flatMap_cons, List.length_append, bits_length, ru, hrl] at ih ⊢
      omega
  have hbits : Spec.bits S = unitBits Sync.ASM (units.map ru) ++ post := by
    rw [hS.bits, unitBits, List.flatMap_map]
  obtain ⟨items, s', hc, hcount, hblocks⟩ := C28_gaps r S Sync.ASM len hr (by decide) (units.map ru) post
    (by intro x hx; obtain ⟨u, hu, rfl⟩ := List.mem_map.1 hx; show (rnd u.2).length = len; rw [hrl, hS.length u hu]) hbits
    (by
      intro before x after e
      obtain ⟨bf, rest, e1, e2, e3⟩ := List.map_eq_append_iff.1 e
      obtain ⟨u, af, e4, e5, e6⟩ := List.map_eq_cons_iff.1 e3
      subst e2 e4 e5
      have := hS.first bf u af e1
      rw [hlenb]
      exact this)
    (by rw [hlenb]; exact hS.last)
  refine outputs_until b derand r len (units.map (·.2)) items s' hc ?_
  rw [List.map_map]
  refine oks_data _ items (by simp [hcount]) ?_
  intro k d hk
  rw [List.getElem?_map] at hk
  cases hu : units[k]? with
  | none => rw [hu] at hk; cases hk
  | some u =>
    rw [hu] at hk
    obtain ⟨x, h1, h2⟩ := hblocks k (ru u) (by rw [List.getElem?_map, hu]; rfl)
    refine ⟨x, h1, ?_⟩
    simp only [Option.map_some, Option.some.injEq] at hk
    rw [← hk]; exact h2

/-- C52 with gaps: frames with anything between them (the remains of lost frames, noise, or nothing): the pipeline without Reed–Solomon yields exactly these frames, as in
`C52_roundtrip`. -/
theorem C52_gaps (b : Build) (derand : Bool) (r : Reader) (S : List U8) (len : Nat) (units : List (List Bool × List U8)) (post : List Bool)
    (hr : Smooth r S) (hS : CarriesGaps derand S len units post) (hdec : ∀ u ∈ units, ∃ h, VCDUHeader.decode u.2 = some h) :
    ∃ frames ended, Outputs b ⟨derand, none, len⟩ r frames ended ∧ frames.map (·.data) = (units.map (·.2)).take frames.length ∧
      (∀ i d f, (units.map (·.2))[i]? = some d → frames[i]? = some f → FrameOf b (((units.map (·.2)).take i).map blk) (blk d) f) ∧
      (ended = true → frames.length = (units.map (·.2)).length) ∧
      (ended = false → b.overflowChecks = true ∧ ∃ d h p, (units.map (·.2))[frames.length]? = some d ∧ VCDUHeader.decode d = some h ∧
        lastOfChannel (((units.map (·.2)).take frames.length).map blk) h.vcid = some p ∧ p.counter.toNat = 2 ^ 24 - 1 ∧ h.counter.toNat < 2 ^ 24 - 1 ∧ h.vcid ≠ 63) := by
  obtain ⟨frames, ended, h1, h2, h3, h4, h5⟩ := C52_until b derand r S len units post hr hS
  refine ⟨frames, ended, h1, h2, h3, ?_, h5⟩
  intro he
  rcases h4 he with h | ⟨d, hd, hn⟩
  · exact h
  · obtain ⟨u, hu, rfl⟩ := List.mem_map.1 (List.mem_of_getElem? hd)
    obtain ⟨x, hx⟩ := hdec u hu
    rw [hx] at hn; cases hn

end Ccsds
