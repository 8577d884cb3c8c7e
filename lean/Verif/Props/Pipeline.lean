import Verif.Proofs.Pipeline
/-!
# C52: the pipeline from bit stream to frames
-/
namespace Ccsds
open Spec Pipeline

theorem oks_data (ds : List (List U8)) : ∀ (items : List (Except Error Block)), items.length = ds.length →
    (∀ (k : Nat) d, ds[k]? = some d → ∃ blk : Block, items[k]? = some (.ok blk) ∧ blk.data = d) → (oks items).map (·.data) = ds := by
  induction ds with
  | nil => intro items hl _; simp at hl; subst hl; rfl
  | cons d ds ih =>
    intro items hl h
    cases items with
    | nil => simp at hl
    | cons it items =>
      obtain ⟨blk, h1, h2⟩ := h 0 d rfl
      simp only [List.getElem?_cons_zero, Option.some.injEq] at h1
      subst h1
      rw [oks_ok, List.map_cons, h2, ih items (by simpa using hl)]
      intro k d' hk
      have := h (k + 1) d' (by simpa using hk)
      simpa using this

theorem lastOfChannel_congr {a c : List Block} (h : a.map (·.data) = c.map (·.data)) (v : U16) : lastOfChannel a v = lastOfChannel c v := by
  have e : ∀ l : List Block, l.filterMap (fun c => VCDUHeader.decode c.data) = (l.map (·.data)).filterMap VCDUHeader.decode := by
    intro l; rw [List.filterMap_map]; rfl
  unfold lastOfChannel
  rw [e a, e c, h]

theorem frameOf_congr {b : Build} {a c : List Block} {x y : Block} {f : Frame} (h : a.map (·.data) = c.map (·.data)) (hx : x.data = y.data)
    (hf : FrameOf b a x f) : FrameOf b c y f := by
  obtain ⟨h1, h2, h3, h4⟩ := hf
  refine ⟨by rw [← hx]; exact h1, by rw [h2, hx], h3, ?_⟩
  rw [← lastOfChannel_congr h]
  exact h4

/-- A block holding `d` (location information is not used by the frame decoder). -/
def blk (d : List U8) : Block := ⟨0, ⟨0, 0#8⟩, d⟩

theorem blk_data (l : List (List U8)) : (l.map blk).map (·.data) = l := by
  rw [List.map_map]; exact List.map_id' l

/-- What the pipeline makes of the blocks that the synchronizer finds: it stops at the first whose header cannot be decoded. -/
theorem outputs_until (b : Build) (derand : Bool) (r : Reader) (len : Nat) (ds : List (List U8)) (items : List (Except Error Block)) (s' : Sync.Iter)
    (hc : Collects Sync.next (Sync.iter r Sync.ASM len) items (some s'))
    (hoks : (oks items).map (·.data) = ds.map (fun d => if derand then Pn.derandomize d else d)) :
    ∃ frames ended, Outputs b ⟨derand, none, len⟩ r frames ended ∧ frames.map (·.data) = ds.take frames.length ∧
      (∀ i d f, ds[i]? = some d → frames[i]? = some f → FrameOf b ((ds.take i).map blk) (blk d) f) ∧
      (ended = true → frames.length = ds.length ∨ ∃ d, ds[frames.length]? = some d ∧ VCDUHeader.decode d = none) ∧
      (ended = false → b.overflowChecks = true ∧ ∃ d h p, ds[frames.length]? = some d ∧ VCDUHeader.decode d = some h ∧
        lastOfChannel ((ds.take frames.length).map blk) h.vcid = some p ∧ p.counter.toNat = 2 ^ 24 - 1 ∧ h.counter.toNat < 2 ^ 24 - 1 ∧ h.vcid ≠ 63) := by
  let rnd := fun d : List U8 => if derand then Pn.derandomize d else d
  have hrnd2 : ∀ d, (if derand then Pn.derandomize (rnd d) else rnd d) = d := by
    intro d
    show (if derand then Pn.derandomize (if derand then Pn.derandomize d else d) else (if derand then Pn.derandomize d else d)) = d
    cases derand
    · rfl
    · exact C31_involution d
  have hdata : ((oks items).map (prep derand)).map (·.data) = ds := by
    have e : ((oks items).map (prep derand)).map (·.data) = ((oks items).map (·.data)).map (fun d => if derand then Pn.derandomize d else d) := by
      rw [List.map_map, List.map_map]
      congr 1
      funext x
      exact prep_data derand x
    rw [e, hoks, List.map_map]
    conv => rhs; rw [← List.map_id ds]
    apply List.map_congr_left
    intro d _
    exact hrnd2 d
  obtain ⟨frames, e, hcf, hle, hfr, hend⟩ := C35_frames b ((oks items).map (prep derand))
  obtain ⟨e', hy, he⟩ := yields_of_collects b derand hcf (Sync.iter r Sync.ASM len) s' items hc rfl
  have hclen : ((oks items).map (prep derand)).length = ds.length := by
    have := congrArg List.length hdata
    rwa [List.length_map] at this
  have hget : ∀ (i : Nat) d, ds[i]? = some d → ∃ c, ((oks items).map (prep derand))[i]? = some c ∧ c.data = d := by
    intro i d hd
    have : (((oks items).map (prep derand)).map (·.data))[i]? = some d := by rw [hdata]; exact hd
    rw [List.getElem?_map] at this
    cases hx : ((oks items).map (prep derand))[i]? with
    | none => rw [hx] at this; simp at this
    | some c => rw [hx] at this; simp at this; exact ⟨c, rfl, this⟩
  have htake : ∀ i, (((oks items).map (prep derand)).take i).map (·.data) = ((ds.take i).map blk).map (·.data) := by
    intro i; rw [List.map_take, hdata, blk_data]
  have hF : ∀ (i : Nat) d f, ds[i]? = some d → frames[i]? = some f → FrameOf b ((ds.take i).map blk) (blk d) f := by
    intro i d f hd hf
    obtain ⟨c, hc1, hc2⟩ := hget i d hd
    exact frameOf_congr (htake i) hc2 (hfr i c f hc1 hf)
  refine ⟨frames, e'.isSome, ⟨e', hy, rfl⟩, ?_, hF, ?_, ?_⟩
  · apply List.ext_getElem?
    intro i
    rw [List.getElem?_map]
    by_cases hi : i < frames.length
    · have hi2 : i < ds.length := by omega
      rw [List.getElem?_take_of_lt hi]
      have h1 := List.getElem?_eq_getElem hi
      have h2 := List.getElem?_eq_getElem hi2
      rw [h1, h2]
      have := (hF i _ _ h2 h1).2.1
      simp only [Option.map_some, this]; rfl
    · rw [List.getElem?_eq_none (by omega), List.getElem?_eq_none (by simp; omega)]; rfl
  · intro hsome
    rw [he] at hsome
    cases e with
    | none => simp at hsome
    | some s =>
      rcases hend with ⟨h1, _⟩ | ⟨c, h1, h2, _⟩
      · exact .inl (by rw [h1, hclen])
      · exact .inr ⟨c.data, by rw [← hdata, List.getElem?_map, h1]; rfl, h2⟩
  · intro hfalse
    rw [he] at hfalse
    cases e with
    | some s => simp at hfalse
    | none =>
      obtain ⟨h0, c, h, p, h1, h2, h3, h4, h5⟩ := C35_panic b _ frames hcf
      refine ⟨h0, c.data, h, p, ?_, h2, ?_, h4, h5⟩
      · rw [← hdata, List.getElem?_map, h1]; rfl
      · rw [← lastOfChannel_congr (htake _)]; exact h3

/-- What the pipeline makes of the blocks that the synchronizer finds. -/
theorem outputs_of_blocks (b : Build) (derand : Bool) (r : Reader) (len : Nat) (ds : List (List U8)) (items : List (Except Error Block)) (s' : Sync.Iter)
    (hc : Collects Sync.next (Sync.iter r Sync.ASM len) items (some s'))
    (hoks : (oks items).map (·.data) = ds.map (fun d => if derand then Pn.derandomize d else d)) (hdec : ∀ d ∈ ds, ∃ h, VCDUHeader.decode d = some h) :
    ∃ frames ended, Outputs b ⟨derand, none, len⟩ r frames ended ∧ frames.map (·.data) = ds.take frames.length ∧
      (∀ i d f, ds[i]? = some d → frames[i]? = some f → FrameOf b ((ds.take i).map blk) (blk d) f) ∧
      (ended = true → frames.length = ds.length) ∧
      (ended = false → b.overflowChecks = true ∧ ∃ d h p, ds[frames.length]? = some d ∧ VCDUHeader.decode d = some h ∧
        lastOfChannel ((ds.take frames.length).map blk) h.vcid = some p ∧ p.counter.toNat = 2 ^ 24 - 1 ∧ h.counter.toNat < 2 ^ 24 - 1 ∧ h.vcid ≠ 63) := by
  obtain ⟨frames, ended, h1, h2, h3, h4, h5⟩ := outputs_until b derand r len ds items s' hc hoks
  refine ⟨frames, ended, h1, h2, h3, ?_, h5⟩
  intro he
  rcases h4 he with h | ⟨d, hd, hn⟩
  · exact h
  · obtain ⟨x, hx⟩ := hdec d (List.mem_of_getElem? hd)
    rw [hx] at hn; cases hn

/-- C52: frames `ds` are (optionally randomized and) sent, each behind the marker, after any bits `pre` and before any bits `post`
that hold no further marker; the stream is cut into bytes and pieces anyhow. The pipeline without Reed-Solomon yields exactly these
frames in order: data, decoded header, and the gap to the previous frame of the channel (`FrameOf`, as in C35); unless it panics, which
only the counter wrap from `2^24 - 1` can cause, and only with overflow checks (C34). -/
theorem C52_roundtrip (b : Build) (derand : Bool) (r : Reader) (S : List U8) (len : Nat) (pre post : List Bool) (ds : List (List U8))
    (hr : Smooth r S) (hne : ds ≠ []) (hlen : ∀ d ∈ ds, d.length = len) (hdec : ∀ d ∈ ds, ∃ h, VCDUHeader.decode d = some h)
    (hS : bits S = pre ++ ds.flatMap (fun d => bits Sync.ASM ++ bits (if derand then Pn.derandomize d else d)) ++ post)
    (hfirst : FirstAt (bits Sync.ASM) (bits S) 0 pre.length)
    (hlast : ∀ i, pre.length + ds.length * (32 + 8 * len) ≤ i → ¬ Occurs (bits Sync.ASM) (bits S) i) :
    ∃ frames ended, Outputs b ⟨derand, none, len⟩ r frames ended ∧ frames.map (·.data) = ds.take frames.length ∧
      (∀ i d f, ds[i]? = some d → frames[i]? = some f → FrameOf b ((ds.take i).map blk) (blk d) f) ∧
      (ended = true → frames.length = ds.length) ∧
      (ended = false → b.overflowChecks = true ∧ ∃ d h p, ds[frames.length]? = some d ∧ VCDUHeader.decode d = some h ∧
        lastOfChannel ((ds.take frames.length).map blk) h.vcid = some p ∧ p.counter.toNat = 2 ^ 24 - 1 ∧ h.counter.toNat < 2 ^ 24 - 1 ∧ h.vcid ≠ 63) := by
  let rnd := fun d : List U8 => if derand then Pn.derandomize d else d
  have hrnd_len : ∀ d, (rnd d).length = d.length := by
    intro d; show (if derand then Pn.derandomize d else d).length = d.length
    split
    · exact C31_length d
    · rfl
  obtain ⟨items, s', hc, hblocks, hcount⟩ := C28_lockstep r S Sync.ASM len hr (by decide) pre post (ds.map rnd)
    (by intro x hx; obtain ⟨d, hd, rfl⟩ := List.mem_map.1 hx; rw [hrnd_len, hlen d hd])
    (by rw [hS, List.flatMap_map]) (fun _ => hfirst)
  have hn := hcount (by
    rw [List.length_map, show 8 * Sync.ASM.length = 32 from rfl]; exact hlast) (by simpa using hne)
  rw [List.length_map] at hn
  have hoks : (oks items).map (·.data) = ds.map rnd := oks_data (ds.map rnd) items (by simp [hn]) (by
    intro k d hk
    obtain ⟨x, h1, h2, _⟩ := hblocks k d hk
    exact ⟨x, h1, h2⟩)
  exact outputs_of_blocks b derand r len ds items s' hc hoks hdec

/-- C52: the frames are a function of the stream: any two loops over the pipeline see the same. -/
theorem C52_deterministic (b : Build) (c : Config) (r : Reader) (fs gs : List Frame) (x y : Bool)
    (h : Outputs b c r fs x) (k : Outputs b c r gs y) : fs = gs ∧ x = y := by
  obtain ⟨e, he, rfl⟩ := h
  obtain ⟨e', he', rfl⟩ := k
  obtain ⟨rfl, rfl⟩ := yields_unique he he'
  exact ⟨rfl, rfl⟩

/-- C52: with counters that increase within every channel (fill frames aside) nothing panics and every gap count is exact. -/
theorem C52_increasing (b : Build) (derand : Bool) (r : Reader) (S : List U8) (len : Nat) (pre post : List Bool) (ds : List (List U8))
    (hr : Smooth r S) (hne : ds ≠ []) (hlen : ∀ d ∈ ds, d.length = len) (hdec : ∀ d ∈ ds, ∃ h, VCDUHeader.decode d = some h)
    (hS : bits S = pre ++ ds.flatMap (fun d => bits Sync.ASM ++ bits (if derand then Pn.derandomize d else d)) ++ post)
    (hfirst : FirstAt (bits Sync.ASM) (bits S) 0 pre.length)
    (hlast : ∀ i, pre.length + ds.length * (32 + 8 * len) ≤ i → ¬ Occurs (bits Sync.ASM) (bits S) i)
    (hinc : ∀ i d h p, ds[i]? = some d → VCDUHeader.decode d = some h →
      lastOfChannel ((ds.take i).map blk) h.vcid = some p → p.counter.toNat < h.counter.toNat) :
    ∃ frames, Outputs b ⟨derand, none, len⟩ r frames true ∧ frames.map (·.data) = ds ∧
      (∀ f ∈ frames, VCDUHeader.decode f.data = some f.header ∧ f.integrity = none) ∧
      (∀ i f, frames[i]? = some f → match lastOfChannel ((ds.take i).map blk) f.header.vcid with
        | none => f.missing = 0
        | some p => if f.header.vcid = 63 then f.missing = 0 else f.missing.toNat = gap (2 ^ 24) f.header.counter.toNat p.counter.toNat) := by
  obtain ⟨frames, ended, h1, h2, h3, h4, h5⟩ := C52_roundtrip b derand r S len pre post ds hr hne hlen hdec hS hfirst hlast
  have hend : ended = true := by
    cases ended with
    | true => rfl
    | false =>
      obtain ⟨_, d, h, p, a1, a2, a3, a4, a5⟩ := h5 rfl
      have := hinc _ d h p a1 a2 a3
      omega
  subst hend
  have hlen' := h4 rfl
  rw [hlen', List.take_length] at h2
  have hat : ∀ (i : Nat) f, frames[i]? = some f → ∃ d, ds[i]? = some d := by
    intro i f hf
    have : (frames.map (·.data))[i]? = some f.data := by rw [List.getElem?_map, hf]; rfl
    rw [h2] at this
    exact ⟨_, this⟩
  refine ⟨frames, h1, h2, ?_, ?_⟩
  · intro f hf
    obtain ⟨i, hi⟩ := List.mem_iff_getElem?.1 hf
    obtain ⟨d, hd⟩ := hat i f hi
    obtain ⟨a1, a2, a3, _⟩ := h3 i d f hd hi
    exact ⟨by rw [a2]; exact a1, a3⟩
  · intro i f hf
    obtain ⟨d, hd⟩ := hat i f hf
    have hF := h3 i d f hd hf
    have a4 := hF.2.2.2
    cases hp : lastOfChannel ((ds.take i).map blk) f.header.vcid with
    | none => rw [hp] at a4; exact a4
    | some p =>
      rw [hp] at a4
      simp only at a4 ⊢
      by_cases h63 : f.header.vcid = 63
      · rw [if_pos h63] at a4 ⊢; exact a4
      · rw [if_neg h63]
        exact C35_missing_exact b _ _ f hF p hp h63 (hinc i d _ p hd hF.1 hp)

/-! A concrete stream: two randomized frames of channel 43 with counters 5 and 6, three bits before the first marker, five bits after the
last frame, delivered in two pieces. It meets all the hypotheses, and both frames come out. -/

def exPipeFrames : List (List U8) := [[0x67#8, 0x6b#8, 0#8, 0#8, 5#8, 0#8, 1#8, 2#8], [0x67#8, 0x6b#8, 0#8, 0#8, 6#8, 0#8, 3#8, 4#8]]
def exCadus : List U8 := [163#8, 89#8, 255#8, 131#8, 179#8, 4#8, 97#8, 216#8, 19#8, 225#8, 174#8, 55#8, 195#8, 89#8, 255#8, 131#8, 179#8, 4#8, 97#8, 216#8, 19#8, 129#8, 174#8, 119#8, 0#8]
def exPipeReader : Reader := ⟨[.data (exCadus.take 7), .data (exCadus.drop 7)], .eof⟩

theorem exPipe_decoded (b : Build) : ∃ frames, Outputs b ((Config.new 8)) exPipeReader frames true ∧ frames.map (·.data) = exPipeFrames ∧
    ∀ f ∈ frames, VCDUHeader.decode f.data = some f.header ∧ f.integrity = none := by
  obtain ⟨frames, h1, h2, h3, _⟩ := C52_increasing b true exPipeReader exCadus 8 [true, false, true] [false, false, false, false, false] exPipeFrames
    ⟨by intro e he
        simp only [exPipeReader, List.mem_cons, List.not_mem_nil, or_false] at he
        rcases he with rfl | rfl <;> exact ⟨_, by decide, rfl⟩, by decide, rfl⟩
    (by decide) (by decide)
    (by intro d hd; exact Option.isSome_iff_exists.1 ((by decide +kernel : ∀ d ∈ exPipeFrames, (VCDUHeader.decode d).isSome = true) d hd))
    (by decide +kernel)
    (by
      refine ⟨by omega, List.prefix_iff_eq_take.2 (by decide +kernel), ?_⟩
      intro j _ hj hoc
      have : j = 0 ∨ j = 1 ∨ j = 2 := by simp at hj; omega
      rcases this with rfl | rfl | rfl <;> exact absurd (List.prefix_iff_eq_take.1 hoc) (by decide +kernel))
    (by
      intro i hi hoc
      have := hoc.length_le
      rw [List.length_drop, show (bits Sync.ASM).length = 32 from by decide, show (bits exCadus).length = 200 from by decide +kernel] at this
      simp only [exPipeFrames, List.length_cons, List.length_nil] at hi
      omega)
    (by
      intro i d h p hd hh hp
      match i with
      | 0 => simp [lastOfChannel] at hp
      | 1 =>
        have hd' : d = [0x67#8, 0x6b#8, 0#8, 0#8, 6#8, 0#8, 3#8, 4#8] := by simpa [exPipeFrames] using hd.symm
        subst hd'
        have e1 : VCDUHeader.decode [0x67#8, 0x6b#8, 0#8, 0#8, 6#8, 0#8, 3#8, 4#8] = some h := hh
        have e2 : (VCDUHeader.decode [0x67#8, 0x6b#8, 0#8, 0#8, 6#8, 0#8, 3#8, 4#8]).map (fun h => (h.vcid, h.counter)) = some (43#16, 6#32) := by decide +kernel
        rw [e1] at e2
        simp only [Option.map_some, Option.some.injEq, Prod.mk.injEq] at e2
        have e3 : (lastOfChannel ((exPipeFrames.take 1).map blk) 43#16).map (·.counter) = some 5#32 := by decide +kernel
        rw [e2.1] at hp
        rw [hp] at e3
        simp only [Option.map_some, Option.some.injEq] at e3
        rw [e2.2, e3]; decide
      | n + 2 => simp [exPipeFrames] at hd)
  exact ⟨frames, h1, h2, h3⟩

theorem exPipe_outputs (b : Build) : ∃ frames, Outputs b ((Config.new 8)) exPipeReader frames true ∧ frames.map (·.data) = exPipeFrames := by
  obtain ⟨frames, h1, h2, _⟩ := exPipe_decoded b
  exact ⟨frames, h1, h2⟩

end Ccsds
