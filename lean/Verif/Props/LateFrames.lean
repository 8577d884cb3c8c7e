import Verif.Props.LateCounts
import Verif.Props.Framing
import Verif.Props.Rollover
/-!
# C143: frames received again, late or after a gap, in the counts
-/
namespace Ccsds
open Spec Framing

theorem setbacks_snoc (l : List Nat) (x : Nat) : setbacks (l ++ [x]) = setbacks l + (match l.getLast? with | some y => if x ≤ y then 1 else 0 | none => 0) := by
  induction l with
  | nil => rfl
  | cons a l ih =>
    cases l with
    | nil => simp [setbacks]
    | cons c l =>
      rw [List.cons_append, List.cons_append, setbacks, ← List.cons_append, ih, setbacks, List.getLast?_cons_cons]
      omega

theorem eq_nil_or_snoc' {α : Type} (L : List α) : L = [] ∨ ∃ L' x, L = L' ++ [x] := by
  rcases List.eq_nil_or_concat L with h | ⟨L', x, h⟩
  · exact .inl h
  · exact .inr ⟨L', x, by rw [h, List.concat_eq_append]⟩

/-- The gap counted between two frames. -/
theorem missing_step {b : Build} {cur last m : U32} (hm : missingFrames b cur last = .ret m) (hc : cur.toNat < 2 ^ 24) (hl : last.toNat < 16777215) :
    m.toNat + last.toNat + 1 = cur.toNat + 16777215 * (if cur.toNat ≤ last.toNat then 1 else 0) := by
  obtain ⟨a1, a2, a3, _⟩ := C34_any b cur last
  rcases Nat.lt_trichotomy cur.toNat last.toNat with h | h | h
  · rw [a3 h (by omega)] at hm
    cases hm
    rw [if_pos (by omega), BitVec.toNat_ofNat]
    omega
  · have e : cur = last := BitVec.eq_of_toNat_eq h
    rw [a1 e] at hm
    cases hm
    rw [if_pos (by omega)]
    have : (16777214#32 : U32).toNat = 16777214 := rfl
    omega
  · rw [a2 h] at hm
    cases hm
    rw [if_neg (by omega), BitVec.toNat_ofNat]
    omega

/-- The frames of a channel among the first `n` frames, and what was counted for them. -/
theorem late_prefix (b : Build) (cadus : List Block) (fs : List Frame) (hlen : fs.length ≤ cadus.length)
    (hf : ∀ (i : Nat) (c : Block) (f : Frame), cadus[i]? = some c → fs[i]? = some f → FrameOf b (cadus.take i) c f) (v : U16) (hv : v ≠ 63)
    (hmax : ∀ f ∈ fs, f.header.vcid = v → f.header.counter.toNat ≠ 16777215) (hlt : ∀ f ∈ fs, f.header.counter.toNat < 2 ^ 24) : ∀ n, n ≤ fs.length →
    lastOfChannel (cadus.take n) v = (ofVcid (fs.take n) v).getLast?.map (·.header) ∧
    match (ofVcid (fs.take n) v).map (·.header.counter.toNat) with
    | [] => True
    | c :: cs => ((ofVcid (fs.take n) v).map (·.missing.toNat)).sum + (c :: cs).length + c = (c :: cs).getLast (by simp) + 1 + 16777215 * setbacks (c :: cs) := by
  intro n
  induction n with
  | zero => intro _; exact ⟨rfl, trivial⟩
  | succ n ih =>
    intro hn
    obtain ⟨i1, i2⟩ := ih (by omega)
    have hn1 : n < fs.length := by omega
    have hc : cadus[n]? = some cadus[n] := List.getElem?_eq_getElem (by omega)
    have hfr : fs[n]? = some fs[n] := List.getElem?_eq_getElem hn1
    obtain ⟨f1, _, _, f4⟩ := hf n _ _ hc hfr
    have t1 : cadus.take (n + 1) = cadus.take n ++ [cadus[n]] := by rw [List.take_add_one, hc]; rfl
    have t2 : fs.take (n + 1) = fs.take n ++ [fs[n]] := by rw [List.take_add_one, hfr]; rfl
    have hmem : fs[n] ∈ fs := List.getElem_mem hn1
    rw [t1, t2, lastOfChannel_snoc _ _ _ f1]
    have hL : ∀ g ∈ (fs.take n).filter (fun f => decide (f.header.vcid = v)), g ∈ fs ∧ g.header.vcid = v := by
      intro g hg
      have := List.mem_filter.1 hg
      exact ⟨List.mem_of_mem_take this.1, by simpa using this.2⟩
    generalize fs[n] = f at *
    unfold ofVcid at i1 i2 ⊢
    rw [List.filter_append]
    by_cases h : f.header.vcid = v
    · rw [if_pos h, List.filter_cons, if_pos (by simpa using h), List.filter_nil]
      refine ⟨by simp, ?_⟩
      rw [h] at f4
      rw [i1] at f4
      generalize (List.filter (fun f => decide (f.header.vcid = v)) (fs.take n)) = L at *
      rcases eq_nil_or_snoc' L with rfl | ⟨L', g, rfl⟩
      · simp only [List.getLast?_nil, Option.map_none] at f4
        simp [f4, setbacks]
        omega
      · simp only [List.getLast?_append, List.getLast?_singleton, Option.some_or, Option.map_some, hv, if_false] at f4
        have hg : g ∈ fs ∧ g.header.vcid = v := hL g (by simp)
        have hglt : g.header.counter.toNat < 16777215 := by
          have h1 := hmax g hg.1 hg.2
          have h2 := hlt g hg.1
          omega
        have hstep := missing_step f4 (hlt f hmem) hglt
        have hlast : ((L' ++ [g]).map (·.header.counter.toNat)).getLast? = some g.header.counter.toNat := by simp
        rw [List.map_append, List.map_append (l₂ := [f])]
        generalize hM : (L' ++ [g]).map (·.header.counter.toNat) = M at *
        cases M with
        | nil => simp at hM
        | cons c cs =>
          have hs := setbacks_snoc (c :: cs) f.header.counter.toNat
          rw [hlast] at hs
          have hl : (c :: cs).getLast (by simp) = g.header.counter.toNat := by
            rw [List.getLast?_eq_some_getLast (by simp)] at hlast
            exact Option.some.inj hlast
          simp only [List.cons_append, List.map_cons, List.map_nil, List.sum_append, List.sum_cons, List.sum_nil, List.length_cons, List.length_append, List.length_nil] at i2 hs ⊢
          rw [hl] at i2
          rw [hs]
          have hl2 : (c :: (cs ++ [f.header.counter.toNat])).getLast (by simp) = f.header.counter.toNat := by
            rw [List.getLast_cons (by simp), List.getLast_append_of_ne_nil _ (by simp), List.getLast_singleton]
          rw [hl2, Nat.mul_add]
          omega
    · rw [if_neg h, List.filter_cons, if_neg (by simpa using h), List.filter_nil, List.append_nil]
      exact ⟨i1, i2⟩

/-- C143: what is counted as missing for a channel whose frames arrive in any order, again, or with gaps, as long as none has the counter 16777215: counting the frames and the missing ones, one
gets the counters from the first to the last frame, plus 16777215 for every frame that is not later than the one before it. -/
theorem C143_exact (b : Build) (cadus : List Block) (fs : List Frame) (e : Option FrameDecoder.State) (h : Collects (FrameDecoder.next b) (FrameDecoder.new cadus) fs e) (v : U16)
    (hv : v ≠ 63) (c : Nat) (cs : List Nat) (hc : (ofVcid fs v).map (·.header.counter.toNat) = c :: cs) (hmax : 16777215 ∉ c :: cs) :
    ((ofVcid fs v).map (·.missing.toNat)).sum + (c :: cs).length + c = (c :: cs).getLast (by simp) + 1 + 16777215 * setbacks (c :: cs) := by
  obtain ⟨fs', e', h1, h2, h3, _⟩ := C35_frames b cadus
  obtain ⟨rfl, _⟩ := h.unique h1
  have hlt : ∀ f ∈ fs, f.header.counter.toNat < 2 ^ 24 := by
    intro f hf
    obtain ⟨i, hi, rfl⟩ := List.getElem_of_mem hf
    exact decode_counter_lt _ _ (h3 i _ _ (List.getElem?_eq_getElem (by omega)) (List.getElem?_eq_getElem hi)).1
  have := (late_prefix b cadus fs h2 h3 v hv (by
    intro f hf hfv hx
    refine hmax ?_
    rw [← hc, ← hx]
    exact List.mem_map_of_mem (List.mem_filter.2 ⟨hf, by simpa using hfv⟩)) hlt fs.length (Nat.le_refl _)).2
  rw [List.take_length, hc] at this
  exact this

/-- The same for the line of the channel in the report of `ccsds framing`. -/
theorem C143_report (b : Build) (cadus : List Block) (fs : List Frame) (e : Option FrameDecoder.State) (h : Collects (FrameDecoder.next b) (FrameDecoder.new cadus) fs e)
    (a : Framing.Args) (s : Framing.Summary) (w : List (List U8)) (hr : Finishes a fs s w) (i : Framing.Info) (hi : i ∈ s.vcids)
    (hv : i.vcid ≠ 63) (c : Nat) (cs : List Nat) (hc : (ofVcid fs i.vcid).map (·.header.counter.toNat) = c :: cs) (hmax : 16777215 ∉ c :: cs) :
    i.tally.missing + i.tally.frames + c = (c :: cs).getLast (by simp) + 1 + 16777215 * setbacks (c :: cs) := by
  obtain ⟨r, _⟩ := (C57_summary a fs).1 s w hr
  obtain ⟨f, hf, hfv⟩ := (r.channels i.vcid).1 ⟨i, hi, rfl⟩
  have hw : Wanted a f := by simpa using (List.mem_filter.1 hf).2
  have he : ofVcid (wanted a fs) i.vcid = ofVcid fs i.vcid := by
    unfold ofVcid wanted
    rw [List.filter_filter]
    refine List.filter_congr fun g _ => ?_
    by_cases hg : g.header.vcid = i.vcid
    · have : Wanted a g := by
        unfold Wanted at hw ⊢
        rw [hg, ← hfv]
        exact hw
      simp [hg, this]
    · simp [hg]
  have ht := r.counts i hi
  rw [he] at ht
  rw [ht.missing, ht.frames, ← List.length_map (as := ofVcid fs i.vcid) (·.header.counter.toNat), hc]
  exact C143_exact b cadus fs e h i.vcid hv c cs hc hmax

/-- What is lost of the packets or frames numbered `a :: l`, in order: the numbers from the first to the last are those received and those lost. -/
theorem lost_received {n : Nat} (a : Nat) (l : List Nat) (h : Received n (a :: l)) : lost (a :: l) + (a :: l).length + a = (a :: l).getLast (by simp) + 1 := by
  have hlast : (a :: l).getLast? = some ((a :: l).getLast (by simp)) := List.getLast?_eq_some_getLast (by simp)
  have hnd : ∀ (l : List Nat) (a : Nat), Received n (a :: l) → (a :: l).Nodup := by
    intro l
    induction l with
    | nil => simp
    | cons b l ih =>
      intro a h
      rw [List.nodup_cons]
      exact ⟨fun hm => Nat.lt_irrefl _ (received_lt h a hm), ih b h.2.2⟩
  have hle : ∀ (l : List Nat) (a : Nat), Received n (a :: l) → ∀ x ∈ a :: l, a ≤ x ∧ x ≤ (a :: l).getLast (by simp) := by
    intro l
    induction l with
    | nil => simp
    | cons b l ih =>
      intro a h x hx
      rw [List.getLast_cons (by simp)]
      have hb := ih b h.2.2 b List.mem_cons_self
      rcases List.mem_cons.1 hx with rfl | hx
      · have := h.1; omega
      · have := ih b h.2.2 x hx
        have := h.1; omega
  have ha := hle l a h a List.mem_cons_self
  have hle := hle l a h
  simp only [lost, List.head?_cons, hlast]
  generalize (a :: l).getLast (by simp) = z at *
  have := filter_notin_length (List.range' a (z + 1 - a)) (a :: l) List.nodup_range' (hnd l a h)
    (fun k hk => by
      have := hle k hk
      rw [List.mem_range'_1]; omega)
  rw [List.length_range'] at this
  omega

/-- C143, the full statement: the number reported as missing is that of the frames, between the first and the last received, that were not received, also if some were received again. -/
def C143_full : Prop := ∀ (b : Build) (cadus : List Block) (fs : List Frame) (e : Option FrameDecoder.State) (v : U16) (c : Nat) (cs : List Nat),
    Collects (FrameDecoder.next b) (FrameDecoder.new cadus) fs e → v ≠ 63 → (ofVcid fs v).map (·.header.counter.toNat) = c :: cs → 16777215 ∉ c :: cs →
    (∀ x ∈ c :: cs, c ≤ x ∧ x ≤ (c :: cs).getLast (by simp)) → ((ofVcid fs v).map (·.missing.toNat)).sum = lost (c :: cs)

/-- C143 when every frame of the channel is later than the one before. -/
theorem C143_partial (b : Build) (cadus : List Block) (fs : List Frame) (e : Option FrameDecoder.State) (h : Collects (FrameDecoder.next b) (FrameDecoder.new cadus) fs e) (v : U16)
    (hv : v ≠ 63) (c : Nat) (cs : List Nat) (hc : (ofVcid fs v).map (·.header.counter.toNat) = c :: cs) (hmax : 16777215 ∉ c :: cs) (hs : setbacks (c :: cs) = 0) :
    ((ofVcid fs v).map (·.missing.toNat)).sum = lost (c :: cs) := by
  have h1 := C143_exact b cadus fs e h v hv c cs hc hmax
  have hbound : ∀ x ∈ c :: cs, x < 2 ^ 24 := by
    intro x hx
    rw [← hc] at hx
    obtain ⟨f, hf, rfl⟩ := List.mem_map.1 hx
    obtain ⟨fs', e', k1, k2, k3, _⟩ := C35_frames b cadus
    obtain ⟨rfl, _⟩ := h.unique k1
    obtain ⟨i, hi, rfl⟩ := List.getElem_of_mem (List.mem_filter.1 hf).1
    exact decode_counter_lt _ _ (k3 i _ _ (List.getElem?_eq_getElem (by omega)) (List.getElem?_eq_getElem hi)).1
  have hn : ∀ l : List Nat, (∀ x ∈ l, x < 2 ^ 24) → Nearby (2 ^ 24) l := by
    intro l
    induction l with
    | nil => intro _; trivial
    | cons x l ih =>
      intro hb
      cases l with
      | nil => trivial
      | cons y l =>
        have h1 := hb x (by simp)
        have h2 := hb y (by simp)
        exact ⟨by omega, by omega, ih fun z hz => hb z (by simp [hz])⟩
  have h2 := lost_received c cs (received_of_nearby cs c (hn _ hbound) hs)
  rw [hs] at h1
  omega

/-! ## A concrete case

The frame with the counter 6 is received twice. -/
namespace LateFramesEx
def blk (n : U8) : Block := ⟨0, ⟨0, 0⟩, [0x55#8, 0x61#8, 0#8, 0#8, n, 0#8, 9#8]⟩

theorem run : ∃ fs e, Collects (FrameDecoder.next ⟨true⟩) (FrameDecoder.new [blk 5, blk 6, blk 6]) fs e ∧
    (ofVcid fs 33#16).map (·.header.counter.toNat) = [5, 6, 6] ∧ (ofVcid fs 33#16).map (·.missing.toNat) = [0, 0, 16777214] :=
  ⟨_, _, .step rfl (.step rfl (.step rfl (.done rfl))), rfl, rfl⟩

theorem C143_violated : ¬ C143_full := by
  intro h
  obtain ⟨fs, e, h1, h2, h3⟩ := run
  have := h ⟨true⟩ _ fs e 33#16 5 [6, 6] h1 (by decide) h2 (by decide) (by decide)
  rw [h3] at this
  exact absurd this (by decide +kernel)

/-- The three frames meet the hypotheses of `C143_exact`, with one setback. -/
example : ∃ fs e, Collects (FrameDecoder.next ⟨true⟩) (FrameDecoder.new [blk 5, blk 6, blk 6]) fs e ∧
    (ofVcid fs 33#16).map (·.header.counter.toNat) = [5, 6, 6] ∧ 16777215 ∉ [5, 6, 6] ∧ setbacks [5, 6, 6] = 1 ∧
    ((ofVcid fs 33#16).map (·.missing.toNat)).sum + 3 + 5 = 6 + 1 + 16777215 * 1 := by
  obtain ⟨fs, e, h1, h2, h3⟩ := run
  exact ⟨fs, e, h1, h2, by decide, by decide, C143_exact ⟨true⟩ _ fs e h1 33#16 (by decide) 5 [6, 6] h2 (by decide)⟩

/-- Frames 5, 6 and 9 meet those of `C143_partial`, and two are missing. -/
example : ∃ fs e, Collects (FrameDecoder.next ⟨true⟩) (FrameDecoder.new [blk 5, blk 6, blk 9]) fs e ∧
    (ofVcid fs 33#16).map (·.header.counter.toNat) = [5, 6, 9] ∧ setbacks [5, 6, 9] = 0 ∧ ((ofVcid fs 33#16).map (·.missing.toNat)).sum = 2 := by
  have h : ∃ fs e, Collects (FrameDecoder.next ⟨true⟩) (FrameDecoder.new [blk 5, blk 6, blk 9]) fs e ∧ (ofVcid fs 33#16).map (·.header.counter.toNat) = [5, 6, 9] :=
    ⟨_, _, .step rfl (.step rfl (.step rfl (.done rfl))), rfl⟩
  obtain ⟨fs, e, h1, h2⟩ := h
  exact ⟨fs, e, h1, h2, by decide, by rw [C143_partial ⟨true⟩ _ fs e h1 33#16 (by decide) 5 [6, 9] h2 (by decide) (by decide)]; decide⟩

/-- The report of `ccsds framing` for the three frames, if it finishes. -/
example : ∃ fs e, Collects (FrameDecoder.next ⟨true⟩) (FrameDecoder.new [blk 5, blk 6, blk 6]) fs e ∧
    ∀ a s w, Finishes a fs s w → ∀ i ∈ s.vcids, i.vcid = 33#16 → i.tally.missing + i.tally.frames + 5 = 6 + 1 + 16777215 := by
  obtain ⟨fs, e, h1, h2, h3⟩ := run
  exact ⟨fs, e, h1, fun a s w hf i hi hv => C143_report ⟨true⟩ _ fs e h1 a s w hf i hi (by rw [hv]; decide) 5 [6, 6] (by rw [hv]; exact h2) (by decide)⟩
end LateFramesEx
end Ccsds
