import Verif.Proofs.Prompt
import Verif.Props.StreamingPipeline
/-!
# C104, C105: blocks and frames are handed out when their last bit has arrived; `synchronize` needs bounded memory
-/
namespace Ccsds
open Spec

/-- C104: if the last bit of the block behind the `k`-th marker has arrived (it is in `S`, the data of the reads `evs`), the first `k + 1` calls of `next` return the blocks behind
the first `k + 1` markers, and of everything that arrives (`more` and `tail` are the later reads), no byte is read beyond the one with the last bit of that block. -/
theorem C104_synchronize (evs more : List Ev) (tail : Tail) (S asm : List U8) (len : Nat) (hr : Smooth ⟨evs, .eof⟩ S) (hasm : asm ≠ []) (ps : List Nat)
    (hps : Markers (bits asm) (bits S) (8 * len) 0 ps) (k p : Nat) (hk : ps[k]? = some p) (hfull : p + 8 * asm.length + 8 * len ≤ 8 * S.length) :
    ∃ (items : List (Except Error Block)) (t : Sync.Iter) (left : List Ev), Takes Sync.next (Sync.iter ⟨evs ++ more, tail⟩ asm len) items t ∧ items.length = k + 1 ∧
      t.scanner.bytes.reader = ⟨left ++ more, tail⟩ ∧ evBytes left = S.drop ((p + 8 * asm.length + 8 * len + 7) / 8) ∧
      ∀ j q, j ≤ k → ps[j]? = some q → ∃ blk, items[j]? = some (.ok blk) ∧ blk.data.length = len ∧
        bits blk.data = ((bits S).drop (q + 8 * asm.length)).take (8 * len) ∧
        blk.loc.offset = (q + 8 * asm.length) / 8 + 1 ∧ blk.loc.bit.toNat = (8 - (q + 8 * asm.length) % 8) % 8 := by
  obtain ⟨items, t, h1, h2, h3⟩ := Sync.prompt_run S asm hasm len more tail k (Sync.iter ⟨evs, .eof⟩ asm len).scanner 0 0 0 ps p
    (Sync.at_start _ S asm len hr) (by omega) (by simpa using hps) hk hfull
  have hkl : k < ps.length := by
    rcases Nat.lt_or_ge k ps.length with h | h
    · exact h
    · rw [List.getElem?_eq_none h] at hk; cases hk
  refine ⟨items, t.andThen more tail, t.scanner.bytes.reader.script, h1, ?_, rfl, h3.2.1, ?_⟩
  · rw [Sync.itemsOK_length h2, List.length_take]; omega
  intro j q hj hq
  obtain ⟨it, e1, e2⟩ := Sync.itemsOK_get h2 (k := j) (p := q) (by rw [List.getElem?_take_of_lt (by omega)]; exact hq)
  have hroom := markers_room (Sync.bits_ne_nil hasm) hps
  have hqf : q + 8 * asm.length + 8 * len ≤ 8 * S.length := by
    rcases Nat.lt_or_ge j k with hjk | hjk
    · have h1' : j + 1 < ps.length := by omega
      have a := hroom.2 j q _ hq (List.getElem?_eq_getElem h1')
      have c := (hroom.1 _ (List.getElem_mem h1')).2
      simp only [bits_length] at a c
      omega
    · obtain rfl : j = k := by omega
      rw [hk] at hq
      cases hq
      exact hfull
  unfold Sync.ItemOK at e2
  rw [if_pos hqf] at e2
  obtain ⟨data, d1, d2, rfl⟩ := e2
  refine ⟨_, e1, d1, d2, ?_, ?_⟩
  · simp only; omega
  · simp only [BitVec.toNat_ofNat]
    rw [show (q + 8 * asm.length) % 8 = q % 8 by omega]
    omega

/-- When no block is cut off at the end of what has arrived, everything obtained from it is obtained, and nothing else read, whatever comes later. -/
theorem C104_all (evs more : List Ev) (tail : Tail) (S asm : List U8) (len : Nat) (hr : Smooth ⟨evs, .eof⟩ S) (hasm : asm ≠ []) (ps : List Nat)
    (hps : Markers (bits asm) (bits S) (8 * len) 0 ps) (hfull : ∀ p ∈ ps, p + 8 * asm.length + 8 * len ≤ 8 * S.length)
    (items : List (Except Error Block)) (e : Option Sync.Iter) (h : Collects Sync.next (Sync.iter ⟨evs, .eof⟩ asm len) items e) :
    ∃ (t : Sync.Iter) (left : List Ev), Takes Sync.next (Sync.iter ⟨evs ++ more, tail⟩ asm len) items t ∧ t.scanner.bytes.reader = ⟨left ++ more, tail⟩ ∧
      (∀ x ∈ items, ∃ blk, x = .ok blk) ∧ ∀ p, ps.getLast? = some p → evBytes left = S.drop ((p + 8 * asm.length + 8 * len + 7) / 8) := by
  obtain ⟨items', s', ps', h1, h2, h3⟩ := Sync.run_iter _ S asm hasm len hr
  obtain rfl := Sync.markers_unique hps h2
  obtain ⟨rfl, _⟩ := h.unique h1
  rcases List.eq_nil_or_concat ps with rfl | ⟨qs, p, rfl⟩
  · have := Sync.itemsOK_length h3
    obtain rfl := List.length_eq_zero_iff.1 this
    exact ⟨_, evs, .nil, rfl, by simp, by simp⟩
  · rw [List.concat_eq_append] at *
    have hp := hfull p (by simp)
    obtain ⟨its, t, k1, k2, k3⟩ := Sync.prompt_run S asm hasm len more tail qs.length (Sync.iter ⟨evs, .eof⟩ asm len).scanner 0 0 0 (qs ++ [p]) p
      (Sync.at_start _ S asm len hr) (by omega) (by simpa using hps) (by simp) hp
    rw [List.take_of_length_le (by simp)] at k2
    obtain rfl := Sync.itemsOK_unique h3 k2
    refine ⟨t.andThen more tail, t.scanner.bytes.reader.script, k1, rfl, ?_, ?_⟩
    · intro x hx
      obtain ⟨j, hj, rfl⟩ := List.getElem_of_mem hx
      have hl := Sync.itemsOK_length h3
      have hj' : (qs ++ [p])[j]? = some (qs ++ [p])[j] := List.getElem?_eq_getElem (by omega)
      obtain ⟨it, e1, e2⟩ := Sync.itemsOK_get h3 hj'
      rw [List.getElem?_eq_getElem hj] at e1
      simp only [Option.some.injEq] at e1
      unfold Sync.ItemOK at e2
      rw [if_pos (hfull _ (List.getElem_mem _))] at e2
      obtain ⟨data, _, _, rfl⟩ := e2
      exact ⟨_, e1⟩
    · intro q hq
      simp only [List.getLast?_append, List.getLast?_singleton, Option.some_or, Option.some.injEq] at hq
      subst hq
      exact k3.2.1

open Pipeline

/-- As many frames as there are blocks, handed out one by one. -/
theorem hands_takes (b : Build) (derand : Bool) {X : List Block} : ∀ {s t : Sync.Iter} {m : HMap U16 U32} {frames : List Frame} {u : FrameDecoder.State},
    Takes Sync.next s (X.map .ok) t → Takes (FrameDecoder.next b) ⟨m, X.map (prep derand)⟩ frames u → 
    ∃ k t' w, k ≤ X.length ∧ Takes Sync.next s ((X.take k).map .ok) t' ∧ Hands b derand ⟨s, m⟩ frames ⟨t', w⟩ := by
  induction X with
  | nil =>
    intro s t m frames u h hf
    have := frames_length b _ _ _ _ hf
    cases frames with
    | nil => exact ⟨0, s, m, by simp, .nil, .nil⟩
    | cons f fs => simp at this
  | cons x X ih =>
    intro s t m frames u h hf
    cases h with
    | @cons _ s' _ _ _ h1 h2 =>
      cases hf with
      | nil => exact ⟨0, s, m, by simp, .nil, .nil⟩
      | @cons _ s2 _ f fs f1 f2 =>
        rw [List.map_cons, next_single] at f1
        cases hn : FrameDecoder.next b ⟨m, [prep derand x]⟩ with
        | panic => rw [hn] at f1; cases f1
        | ret r =>
          obtain ⟨o, t2⟩ := r
          rw [hn] at f1
          simp only [Outcome.ret.injEq, Prod.mk.injEq] at f1
          obtain ⟨rfl, rfl⟩ := f1
          obtain ⟨k, t', w, k1, k2, k3⟩ := ih h2 f2
          exact ⟨k + 1, t', w, by simpa using k1, by rw [List.take_succ_cons, List.map_cons]; exact .cons h1 k2, .frame (.ok h1) hn k3⟩

theorem takes_det {S α : Type} {next : S → Outcome (Option α × S)} : ∀ {as bs : List α} {s t u : S}, Takes next s as t → Takes next s bs u → as.length = bs.length →
    as = bs ∧ t = u := by
  intro as
  induction as with
  | nil =>
    intro bs s t u h k hl
    obtain rfl := List.length_eq_zero_iff.1 hl.symm
    cases h; cases k
    exact ⟨rfl, rfl⟩
  | cons a as ih =>
    intro bs s t u h k hl
    cases k with
    | nil => cases hl
    | cons k1 k2 =>
      cases h with
      | cons h1 h2 =>
        rw [h1] at k1
        cases k1
        obtain ⟨rfl, rfl⟩ := ih h2 k2 (by simpa using hl)
        exact ⟨rfl, rfl⟩

/-- C104 for the frames of the pipeline without Reed-Solomon: when no block is cut off at the end of what has arrived, all frames in it are handed out, and nothing that arrives
later is read for them, whatever it is. -/
theorem C104_pipeline (b : Build) (c : Config) (evs more : List Ev) (tail : Tail) (S : List U8) (hr : Smooth ⟨evs, .eof⟩ S) (ps : List Nat)
    (hps : Markers (bits Sync.ASM) (bits S) (8 * c.blockLength) 0 ps) (hfull : ∀ p ∈ ps, p + 8 * 4 + 8 * c.blockLength ≤ 8 * S.length)
    (frames : List Frame) (ended : Bool) (h : Outputs b c ⟨evs, .eof⟩ frames ended) :
    ∃ (t : State) (left : List Ev), Hands b c.derandomize (start c ⟨evs ++ more, tail⟩) frames t ∧ t.sync.scanner.bytes.reader = ⟨left ++ more, tail⟩ := by
  have hasm : Sync.ASM ≠ [] := by simp [Sync.ASM]
  obtain ⟨items, s, e, h1, h2, _⟩ := outputs_blocks hr h
  obtain ⟨t, left, k1, k2, k3, _⟩ := C104_all evs more tail S Sync.ASM c.blockLength hr hasm ps hps hfull items _ h1
  rw [← oks_all _ k3] at k1
  obtain ⟨u, hu⟩ := h2.takes
  obtain ⟨k, t', w, l1, l2, l3⟩ := hands_takes b c.derandomize k1 hu
  rw [← List.length_map (f := Except.ok (ε := Error)), oks_all _ k3] at l1
  cases k with
  | zero =>
    simp only [List.take_zero, List.map_nil] at l2
    cases l2
    exact ⟨_, evs, l3, rfl⟩
  | succ k =>
    obtain ⟨items', s', ps', c1, c2, c3⟩ := Sync.run_iter _ S Sync.ASM hasm c.blockLength hr
    obtain rfl := Sync.markers_unique hps c2
    obtain ⟨rfl, _⟩ := h1.unique c1
    have hl := Sync.itemsOK_length c3
    have hkp : k < ps.length := by omega
    obtain ⟨its, t2, left2, d1, d2, d3, _⟩ := C104_synchronize evs more tail S Sync.ASM c.blockLength hr hasm ps hps k _ (List.getElem?_eq_getElem hkp)
      (hfull _ (List.getElem_mem hkp))
    obtain ⟨_, rfl⟩ := takes_det l2 d1 (by rw [List.map_take, oks_all _ k3, d2, List.length_take]; omega)
    exact ⟨_, left2, l3, d3⟩

namespace Sync

theorem next_cache {b b' : Bytes} {r : Except IoKind U8} (h : b.next = (r, b')) :
    b'.cache.length ≤ b.cache.length ∧ (∀ x, r = .ok x → b.cache ≠ [] → b'.cache.length + 1 = b.cache.length) := by
  unfold Bytes.next at h
  cases hc : b.cache.getLast? with
  | some x =>
    rw [hc] at h
    simp only [Prod.mk.injEq] at h
    obtain ⟨rfl, rfl⟩ := h
    have hne : b.cache ≠ [] := by intro e; simp [e] at hc
    have := List.length_pos_iff.2 hne
    simp only [List.length_dropLast]
    exact ⟨by omega, fun _ _ _ => by omega⟩
  | none =>
    rw [hc] at h
    have h0 : b.cache = [] := by simpa using hc
    simp only at h
    split at h <;> (simp only [Prod.mk.injEq] at h; obtain ⟨rfl, rfl⟩ := h; exact ⟨Nat.le_refl _, fun _ _ hn => absurd h0 hn⟩)

theorem attempt_cache (pm : List (U8 × U8)) : ∀ (w : List U8) (b : Bytes),
    match attempt pm w b with
    | .io _ b' => b'.cache.length ≤ b.cache.length
    | .mismatch w' b' => b'.cache.length + w'.length ≤ max (b.cache.length + w.length) (w.length + pm.length)
    | .found w' b' => b'.cache.length + w'.length ≤ max (b.cache.length + w.length) (w.length + pm.length) ∧ w'.length = w.length + pm.length := by
  induction pm with
  | nil => intro w b; simp [attempt]
  | cons e pm ih =>
    obtain ⟨p, m⟩ := e
    intro w b
    rw [attempt]
    cases hn : b.next with
    | mk r b1 =>
      obtain ⟨n1, n2⟩ := next_cache hn
      cases r with
      | error k => exact n1
      | ok x =>
        have hx : b1.cache.length + (w ++ [x]).length ≤ max (b.cache.length + w.length) (w.length + (pm.length + 1)) := by
          simp only [List.length_append, List.length_singleton]
          by_cases h0 : b.cache = []
          · rw [h0] at n1; simp only [List.length_nil] at n1; omega
          · have := n2 x rfl h0; omega
        simp only
        by_cases hm : x &&& m ≠ p
        · rw [if_pos hm]
          simpa using hx
        · rw [if_neg hm]
          have := ih (w ++ [x]) b1
          revert this
          cases attempt pm (w ++ [x]) b1 with
          | io k b2 => exact fun h => Nat.le_trans h n1
          | mismatch w' b2 =>
            simp only [List.length_append, List.length_cons, List.length_nil] at hx ⊢
            omega
          | found w' b2 =>
            simp only [List.length_append, List.length_cons, List.length_nil] at hx ⊢
            omega

theorem scan_held (asm : List U8) (s : State) : For asm s → s.bytes.cache.length ≤ asm.length + 1 → ∀ res s', scan s = .ret (res, s') →
    s'.bytes.cache.length ≤ asm.length + 1 := by
  fun_induction scan s with
  | case1 => intro _ _ res s' h; cases h
  | case2 s h8 pat mask e1 e2 b hat =>
    intro hf hc res s' h
    have ha := attempt_cache (pat.zip mask) [] s.bytes
    rw [hat] at ha
    simp only [Outcome.ret.injEq, Prod.mk.injEq] at h
    obtain ⟨_, rfl⟩ := h
    exact Nat.le_trans ha hc
  | case3 s h8 pat mask e1 e2 k b hat hk =>
    intro hf hc res s' h
    have ha := attempt_cache (pat.zip mask) [] s.bytes
    rw [hat] at ha
    simp only [Outcome.ret.injEq, Prod.mk.injEq] at h
    obtain ⟨_, rfl⟩ := h
    exact Nat.le_trans ha hc
  | case4 s h8 pat mask e1 e2 w b hat h7 ih =>
    intro hf hc res s' h
    have ha := attempt_cache (pat.zip mask) [] s.bytes
    rw [hat] at ha
    have hl : (pat.zip mask).length ≤ asm.length + 1 := by
      rw [hf.1, patterns_get asm _ hf.2.2] at e2
      rw [hf.2.1, masks_get asm _ hf.2.2] at e1
      cases e1; cases e2
      rw [zip_get, pmOf_length]; split <;> omega
    refine ih ⟨hf.1, hf.2.1, by simp⟩ ?_ res s' h
    simp only [Bytes.push, List.length_append, List.length_take, List.length_reverse, List.length_nil, Nat.add_zero, Nat.zero_add] at ha ⊢
    omega
  | case5 s h8 pat mask e1 e2 w b hat h7 ih =>
    intro hf hc res s' h
    have ha := attempt_cache (pat.zip mask) [] s.bytes
    rw [hat] at ha
    have hl : (pat.zip mask).length ≤ asm.length + 1 := by
      rw [hf.1, patterns_get asm _ hf.2.2] at e2
      rw [hf.2.1, masks_get asm _ hf.2.2] at e1
      cases e1; cases e2
      rw [zip_get, pmOf_length]; split <;> omega
    refine ih ⟨hf.1, hf.2.1, by have := hf.2.2; simp only; omega⟩ ?_ res s' h
    simp only [Bytes.push, List.length_append, List.length_reverse, List.length_nil, Nat.add_zero, Nat.zero_add] at ha ⊢
    omega
  | case6 => intro _ _ res s' h; cases h
  | case7 s h8 pat mask e1 e2 w b hat hlt bit offset bb b' =>
    intro hf hc res s' h
    have ha := attempt_cache (pat.zip mask) [] s.bytes
    rw [hat] at ha
    have hl : (pat.zip mask).length = asm.length + (if s.patternIdx = 0 then 0 else 1) := by
      rw [hf.1, patterns_get asm _ hf.2.2] at e2
      rw [hf.2.1, masks_get asm _ hf.2.2] at e1
      cases e1; cases e2
      rw [zip_get, pmOf_length]
    simp only [Outcome.ret.injEq, Prod.mk.injEq] at h
    obtain ⟨_, rfl⟩ := h
    simp only [b']
    simp only [List.length_nil, Nat.add_zero, Nat.zero_add] at ha
    split
    · rename_i h0
      rw [if_neg (by omega)] at hl
      simp only [Bytes.push, List.length_append, List.length_singleton]
      omega
    · split at hl <;> omega
  | case8 => intro _ _ res s' h; cases h

theorem fill_held {b b' : Bytes} {m : Nat} {o : Except IoKind Bool} {buf : List U8} (hf : b.fill m = (o, buf, b')) :
    b'.cache.length ≤ b.cache.length ∧ (∀ x, o = .ok x → b'.cache.length ≤ b.cache.length - m) := by
  unfold Bytes.fill at hf
  split at hf
  · rename_i he
    have he : b.cache = [] := by simpa using he
    split at hf
    · simp only at hf
      split at hf <;> (simp only [Prod.mk.injEq] at hf; obtain ⟨rfl, _, rfl⟩ := hf; simp [he])
    · simp only [Prod.mk.injEq] at hf; obtain ⟨rfl, _, rfl⟩ := hf; simp [he]
  · split at hf
    · split at hf
      · simp only [Prod.mk.injEq] at hf; obtain ⟨rfl, _, rfl⟩ := hf; simp
      · simp only [Prod.mk.injEq] at hf; obtain ⟨rfl, _, rfl⟩ := hf; simp
    · simp only [Prod.mk.injEq] at hf
      obtain ⟨rfl, _, rfl⟩ := hf
      simp only [List.length_drop]
      exact ⟨by omega, fun _ _ => by omega⟩

theorem block_held (n : Nat) (s : State) (hc : s.bytes.cache.length ≤ n + 1) : (block s).2.bytes.cache.length ≤ n + 1 := by
  unfold block
  simp only
  split
  · rename_i hf
    have := (fill_held hf).1
    simp only
    omega
  · rename_i hf
    have h1 := (fill_held hf).1
    have h2 := (fill_held hf).2 _ rfl
    simp only
    split
    · rename_i h0
      rw [if_pos h0] at h2
      simp only [Bytes.push, List.length_append, List.length_singleton]
      omega
    · omega

theorem next_held (asm : List U8) (s s' : Iter) (res : Option (Except Error Block)) (hf : Safe asm s) (hc : s.scanner.bytes.cache.length ≤ asm.length + 1)
    (h : next s = .ret (res, s')) : Safe asm s' ∧ s'.scanner.bytes.cache.length ≤ asm.length + 1 := by
  obtain ⟨res', s1, e1, e2⟩ := next_safe asm s hf
  rw [h] at e1
  cases e1
  refine ⟨e2, ?_⟩
  unfold next at h
  cases hs : scan s.scanner with
  | panic => rw [hs] at h; cases h
  | ret y =>
    obtain ⟨o, sc⟩ := y
    have hsc := scan_held asm _ hf.1 hc _ _ hs
    rw [hs] at h
    match o, h with
    | .ok none, h => simp only [Outcome.ret.injEq, Prod.mk.injEq] at h; obtain ⟨_, rfl⟩ := h; exact hsc
    | .error e, h => simp only [Outcome.ret.injEq, Prod.mk.injEq] at h; obtain ⟨_, rfl⟩ := h; exact hsc
    | .ok (some loc), h =>
      have hb := block_held asm.length sc hsc
      simp only at h
      split at h
      · cases h
      · cases hbl : block sc with
        | mk r sc' =>
          rw [hbl] at h hb
          cases r <;> (simp only [Outcome.ret.injEq, Prod.mk.injEq] at h; obtain ⟨_, rfl⟩ := h; exact hb)

end Sync

/-- C105: whatever the reader does (failing and interrupted reads included), at most `asm.length + 1` bytes read before are held back between calls of `next` of `synchronize`. -/
theorem C105_synchronize (r : Reader) (asm : List U8) (len : Nat) (items : List (Except Error Block)) (t : Sync.Iter)
    (h : Takes Sync.next (Sync.iter r asm len) items t) : t.scanner.bytes.cache.length ≤ asm.length + 1 := by
  have key : ∀ (s : Sync.Iter) (items : List (Except Error Block)), Takes Sync.next s items t → Sync.Safe asm s → s.scanner.bytes.cache.length ≤ asm.length + 1 →
      t.scanner.bytes.cache.length ≤ asm.length + 1 := by
    clear h
    intro s items h
    induction h with
    | nil => intro _ hc; exact hc
    | cons h1 _ ih =>
      intro hs hc
      obtain ⟨n1, n2⟩ := Sync.next_held asm _ _ _ hs hc h1
      exact ih n1 n2
  exact key _ items h (Sync.iter_safe r asm len) (by simp [Sync.iter, Sync.new, Sync.State.withAsm, Bytes.new])

/-! The two frames of `exCadus`, three bits off the byte boundary: with more to come, or a reader that blocks or fails afterwards, both are handed out. -/

theorem exCadus_markers : Markers (bits Sync.ASM) (bits exCadus) (8 * 8) 0 [3, 99] := by
  have hn : ∀ j, (j < 3 ∨ 67 ≤ j ∧ j < 99) → ¬ Occurs (bits Sync.ASM) (bits exCadus) j := by
    intro j hj hoc
    have key : ∀ i < 99, (i < 3 ∨ 67 ≤ i) → bits Sync.ASM ≠ List.take (bits Sync.ASM).length ((bits exCadus).drop i) := by decide +kernel
    exact key j (by omega) (by omega) (List.prefix_iff_eq_take.1 hoc)
  have h32 : (bits Sync.ASM).length = 32 := by decide
  refine .cons ⟨by omega, List.prefix_iff_eq_take.2 (by decide +kernel), fun j _ hj => hn j (by omega)⟩ ?_
  refine .cons ⟨by omega, List.prefix_iff_eq_take.2 (by decide +kernel), fun j h1 hj => hn j (by omega)⟩ (.none ?_)
  intro i hi hoc
  have := hoc.length_le
  rw [List.length_drop, h32, show (bits exCadus).length = 200 from by decide +kernel] at this
  omega

theorem exPipe_smooth : Smooth ⟨exPipeReader.script, .eof⟩ exCadus := by
  refine ⟨?_, by decide, rfl⟩
  intro e he
  simp only [exPipeReader, List.mem_cons, List.not_mem_nil, or_false] at he
  rcases he with rfl | rfl <;> exact ⟨_, by decide, rfl⟩

/-- The first block ends with bit 5 of byte 12: 12 further bytes of what has arrived are still there after the first call. -/
example (more : List Ev) (tail : Tail) : ∃ (blk : Block) (t : Sync.Iter) (left : List Ev),
    Takes Sync.next (Sync.iter ⟨exPipeReader.script ++ more, tail⟩ Sync.ASM 8) [.ok blk] t ∧ t.scanner.bytes.reader = ⟨left ++ more, tail⟩ ∧
    evBytes left = exCadus.drop 13 := by
  obtain ⟨items, t, left, h1, h2, h3, h4, h5⟩ := C104_synchronize _ more tail exCadus Sync.ASM 8 exPipe_smooth (by simp [Sync.ASM]) _ exCadus_markers 0 3 rfl (by decide)
  obtain ⟨blk, e, _⟩ := h5 0 3 (by omega) rfl
  match items, h2, e with
  | [x], _, e =>
    simp only [List.length_cons, List.length_nil, Nat.zero_add, Nat.lt_add_one, getElem?_pos, List.getElem_cons_zero, Option.some.injEq] at e
    subst e
    exact ⟨blk, t, left, h1, h3, h4⟩

example (b : Build) (more : List Ev) (tail : Tail) : ∃ (frames : List Frame) (t : State) (left : List Ev), frames.map (·.data) = exPipeFrames ∧
    Hands b true (start (Config.new 8) ⟨exPipeReader.script ++ more, tail⟩) frames t ∧ t.sync.scanner.bytes.reader = ⟨left ++ more, tail⟩ := by
  obtain ⟨frames, h1, h2⟩ := exPipe_outputs b
  obtain ⟨t, left, k1, k2⟩ := C104_pipeline b (Config.new 8) _ more tail exCadus exPipe_smooth _ exCadus_markers (by decide) frames true h1
  exact ⟨frames, t, left, h2, k1, k2⟩

/-- C105 applies after the first block, for instance. -/
example : ∃ items t, Takes Sync.next (Sync.iter exPipeReader Sync.ASM 8) items t ∧ items.length = 1 ∧ t.scanner.bytes.cache.length ≤ 5 := by
  obtain ⟨items, t, left, h1, h2, _⟩ := C104_synchronize _ [] .eof exCadus Sync.ASM 8 exPipe_smooth (by simp [Sync.ASM]) _ exCadus_markers 0 3 rfl (by decide)
  rw [List.append_nil] at h1
  exact ⟨items, t, h1, h2, C105_synchronize _ _ _ _ _ h1⟩

end Ccsds
