import Verif.Proofs.SyncSafe
import Verif.Proofs.Pipeline
import Verif.Proofs.ReedSolomon
/-!
# Sizes of blocks and frames, on arbitrary readers and codecs
-/
namespace Ccsds

namespace Reader

theorem readExactGo_length (t : Tail) : ∀ (es : List Ev) (n : Nat) (acc got : List U8) (es' : List Ev),
    readExactGo t es n acc = (none, got, es') → got.length = acc.length + n := by
  intro es n acc
  fun_induction readExactGo t es n acc with
  | case1 es acc => intro got es' h; simp only [Prod.mk.injEq] at h; simp [← h.2.1]
  | case2 => intro got es' h; simp at h
  | case3 => intro got es' h; simp at h
  | case4 acc rest n ih => intro got es' h; exact ih got es' h
  | case5 => intro got es' h; simp at h
  | case6 => intro got es' h; simp at h
  | case7 acc bs rest n hne hle ih =>
    intro got es' h
    have := ih got es' h
    simp only [List.length_append] at this
    omega
  | case8 acc bs rest n hne hle =>
    intro got es' h
    simp only [Prod.mk.injEq] at h
    rw [← h.2.1]
    simp; omega

theorem readExactGo_short (t : Tail) : ∀ (es : List Ev) (n : Nat) (acc got : List U8) (es' : List Ev) (k : IoKind),
    readExactGo t es n acc = (some k, got, es') → got.length ≤ acc.length + n := by
  intro es n acc
  fun_induction readExactGo t es n acc with
  | case1 es acc => intro got es' k h; simp at h
  | case2 => intro got es' k h; simp only [Prod.mk.injEq] at h; rw [← h.2.1]; omega
  | case3 => intro got es' k h; simp only [Prod.mk.injEq] at h; rw [← h.2.1]; omega
  | case4 acc rest n ih => intro got es' k h; exact ih got es' k h
  | case5 => intro got es' k h; simp only [Prod.mk.injEq] at h; rw [← h.2.1]; omega
  | case6 => intro got es' k h; simp only [Prod.mk.injEq] at h; rw [← h.2.1]; omega
  | case7 acc bs rest n hne hle ih =>
    intro got es' k h
    have := ih got es' k h
    simp only [List.length_append] at this
    omega
  | case8 acc bs rest n hne hle => intro got es' k h; simp at h

theorem readExact_length {r r' : Reader} {n : Nat} {got : List U8} (h : r.readExact n = (none, got, r')) : got.length = n := by
  unfold readExact at h
  simp only [Prod.mk.injEq] at h
  have := readExactGo_length r.tail r.script n [] got _ (by rw [← h.1, ← h.2.1])
  simpa using this

theorem readExact_partial {r r' : Reader} {n : Nat} {got : List U8} {k : IoKind} (h : r.readExact n = (some k, got, r')) : got.length ≤ n := by
  unfold readExact at h
  simp only [Prod.mk.injEq] at h
  have := readExactGo_short r.tail r.script n [] got _ k (by rw [← h.1, ← h.2.1])
  simpa using this

end Reader

namespace Sync

theorem fill_length (b : Bytes) (n : Nat) : (b.fill n).2.1.length = n := by
  unfold Bytes.fill
  by_cases hc : b.cache.isEmpty
  · rw [if_pos hc]
    split
    · rename_i k got r h
      have := Reader.readExact_partial h
      simp only
      split <;> (simp; omega)
    · rename_i got r h
      exact Reader.readExact_length h
  · rw [if_neg hc]
    split
    · rename_i hl
      split
      · rename_i k got r h
        have := Reader.readExact_partial h
        simp; omega
      · rename_i got r h
        have := Reader.readExact_length h
        simp only [List.length_append]; omega
    · simp; omega

theorem block_length (s s' : State) (d : List U8) (h : block s = (.ok d, s')) : d.length = s.blockSize ∧ s'.blockSize = s.blockSize := by
  unfold block at h
  have hf := fill_length s.bytes (if s.patternIdx ≠ 0 then s.blockSize + 1 else s.blockSize)
  cases hr : s.bytes.fill (if s.patternIdx ≠ 0 then s.blockSize + 1 else s.blockSize) with
  | mk e rest =>
    obtain ⟨buf, b'⟩ := rest
    rw [hr] at hf
    simp only [hr] at h
    cases e with
    | error k => simp at h
    | ok t =>
      simp only [Prod.mk.injEq, Except.ok.injEq] at h
      obtain ⟨rfl, rfl⟩ := h
      refine ⟨?_, rfl⟩
      rw [List.length_take, leftShift_length]
      simp only at hf
      split at hf <;> omega

theorem block_size_error (s s' : State) (e : Error) (h : block s = (.error e, s')) : s'.blockSize = s.blockSize := by
  unfold block at h
  cases hr : s.bytes.fill (if s.patternIdx ≠ 0 then s.blockSize + 1 else s.blockSize) with
  | mk e' rest =>
    obtain ⟨buf, b'⟩ := rest
    simp only [hr] at h
    cases e' with
    | error k => simp only [Prod.mk.injEq] at h; rw [← h.2]
    | ok t => simp at h

theorem scan_blockSize (s s' : State) (res : Except Error (Option Loc)) (h : scan s = .ret (res, s')) : s'.blockSize = s.blockSize := by
  fun_induction scan s with
  | case1 => simp at h
  | case2 => simp only [Outcome.ret.injEq, Prod.mk.injEq] at h; rw [← h.2]
  | case3 => simp only [Outcome.ret.injEq, Prod.mk.injEq] at h; rw [← h.2]
  | case4 s h8 pat mask e1 e2 w b hat h7 ih => exact ih h
  | case5 s h8 pat mask e1 e2 w b hat h7 ih => exact ih h
  | case6 => simp at h
  | case7 => simp only [Outcome.ret.injEq, Prod.mk.injEq] at h; rw [← h.2]
  | case8 => simp at h

theorem next_blockSize (s s' : Iter) (res : Option (Except Error Block)) (h : next s = .ret (res, s')) :
    s'.scanner.blockSize = s.scanner.blockSize ∧ ∀ b, res = some (.ok b) → b.data.length = s.scanner.blockSize := by
  unfold next at h
  cases hs : scan s.scanner with
  | panic => rw [hs] at h; simp at h
  | ret x =>
    obtain ⟨r, sc⟩ := x
    have hb := scan_blockSize _ _ _ hs
    rw [hs] at h
    match r with
    | .error e => simp only [Outcome.ret.injEq, Prod.mk.injEq] at h; obtain ⟨rfl, rfl⟩ := h; exact ⟨hb, by simp⟩
    | .ok none => simp only [Outcome.ret.injEq, Prod.mk.injEq] at h; obtain ⟨rfl, rfl⟩ := h; exact ⟨hb, by simp⟩
    | .ok (some loc) =>
      simp only at h
      split at h
      · simp at h
      · cases hbl : block sc with
        | mk r sc' =>
          rw [hbl] at h
          cases r with
          | ok d =>
            simp only [Outcome.ret.injEq, Prod.mk.injEq] at h
            obtain ⟨rfl, rfl⟩ := h
            obtain ⟨h1, h2⟩ := block_length _ _ _ hbl
            refine ⟨by simp only; omega, ?_⟩
            intro b e
            simp only [Option.some.injEq, Except.ok.injEq] at e
            rw [← e]; simp only; omega
          | error er =>
            simp only [Outcome.ret.injEq, Prod.mk.injEq] at h
            obtain ⟨rfl, rfl⟩ := h
            have := block_size_error _ _ _ hbl
            exact ⟨by simp only; omega, by simp⟩

end Sync

namespace Pipeline

theorem pulls_blockSize {s s' : Sync.Iter} {o : Option Block} (h : Pulls s o s') :
    s'.scanner.blockSize = s.scanner.blockSize ∧ ∀ b, o = some b → b.data.length = s.scanner.blockSize := by
  induction h with
  | done h => exact ⟨(Sync.next_blockSize _ _ _ h).1, by simp⟩
  | ok h =>
    obtain ⟨h1, h2⟩ := Sync.next_blockSize _ _ _ h
    exact ⟨h1, fun b e => h2 b (by simpa using e)⟩
  | skip h hp ih =>
    obtain ⟨h1, _⟩ := Sync.next_blockSize _ _ _ h
    exact ⟨by omega, fun b e => by rw [ih.2 b e, h1]⟩

theorem prep_length (d : Bool) (x : Block) : (prep d x).data.length = x.data.length := by
  rw [prep_data]
  split
  · simp [Pn.derandomize]
  · rfl

theorem yields_length {b : Build} {d : Bool} {s : State} {fs : List Frame} {e : Option State} (h : Yields b d s fs e) :
    ∀ f ∈ fs, f.data.length = s.sync.scanner.blockSize := by
  induction h with
  | done => simp
  | stop => simp
  | panicked => simp
  | @frame s y blk t f fs e hp hn hy ih =>
    obtain ⟨h1, h2⟩ := pulls_blockSize hp
    intro g hg
    rcases List.mem_cons.1 hg with rfl | hg
    · have hd : g.data = (prep d blk).data := by
        unfold FrameDecoder.next at hn
        simp only at hn
        cases hv : VCDUHeader.decode (prep d blk).data with
        | none => rw [hv] at hn; simp at hn
        | some hdr =>
          rw [hv] at hn
          simp only at hn
          split at hn
          · rename_i last _
            cases hm : missingFrames b hdr.counter last with
            | panic => rw [hm] at hn; simp [Bind.bind, Outcome.bind] at hn
            | ret m =>
              rw [hm] at hn
              simp only [Bind.bind, Outcome.bind, Outcome.ret.injEq, Prod.mk.injEq, Option.some.injEq] at hn
              rw [← hn.1]
          · simp only [Bind.bind, Outcome.bind, Outcome.ret.injEq, Prod.mk.injEq, Option.some.injEq] at hn
            rw [← hn.1]
      rw [hd, prep_length, h2 blk rfl]
    · rw [ih g hg]; exact h1

theorem yields_integrity {b : Build} {d : Bool} {s : State} {fs : List Frame} {e : Option State} (h : Yields b d s fs e) :
    ∀ f ∈ fs, f.integrity = none := by
  induction h with
  | done => simp
  | stop => simp
  | panicked => simp
  | @frame s y blk t f fs e hp hn hy ih =>
    intro g hg
    rcases List.mem_cons.1 hg with rfl | hg
    · unfold FrameDecoder.next at hn
      simp only at hn
      cases hv : VCDUHeader.decode (prep d blk).data with
      | none => rw [hv] at hn; simp at hn
      | some hdr =>
        rw [hv] at hn
        simp only at hn
        split at hn
        · rename_i last _
          cases hm : missingFrames b hdr.counter last with
          | panic => rw [hm] at hn; simp [Bind.bind, Outcome.bind] at hn
          | ret m =>
            rw [hm] at hn
            simp only [Bind.bind, Outcome.bind, Outcome.ret.injEq, Prod.mk.injEq, Option.some.injEq] at hn
            rw [← hn.1]
        · simp only [Bind.bind, Outcome.bind, Outcome.ret.injEq, Prod.mk.injEq, Option.some.injEq] at hn
          rw [← hn.1]
    · exact ih g hg

end Pipeline

namespace RS

theorem forRange_inv {σ : Type} (P : σ → Prop) (f : Nat → σ → Outcome σ) (hf : ∀ i s s', P s → f i s = .ret s' → P s') :
    ∀ n s s', P s → forRange n f s = .ret s' → P s' := by
  intro n
  induction n with
  | zero => intro s s' h e; rw [forRange] at e; simp only [Outcome.ret.injEq] at e; rw [← e]; exact h
  | succ n ih =>
    intro s s' h e
    rw [forRange] at e
    simp only [Bind.bind] at e
    cases hg : forRange n f s with
    | panic => rw [hg] at e; simp [Outcome.bind] at e
    | ret t => rw [hg] at e; exact hf n t s' (ih s t h hg) e

theorem writeMessage_len (I idx : Nat) (m c c' : List U8) (h : writeMessage I idx m c = .ret c') : c'.length = c.length := by
  unfold writeMessage at h
  refine forRange_inv (fun x => x.length = c.length) _ ?_ _ _ _ rfl h
  intro i s s' hs e
  split at e
  · simp at e
  · split at e
    · simp only [Outcome.ret.injEq] at e; rw [← e, List.length_set]; exact hs
    · simp at e

theorem removeParity_len (c : Config) (d d' : List U8) (h : removeParity c d = .ret d') : d'.length = d.length - c.interleave.toNat * c.parityLen := by
  unfold removeParity at h
  simp only at h
  split at h
  · simp at h
  · simp only [Outcome.ret.injEq] at h; rw [← h, List.length_take]; omega

theorem messageLoop_len (k : Codec) (c : Config) (cadu : List U8) : ∀ (ms : List (List U8)) (idx : Nat) (cor : List U8) (num : Nat) (e : LoopEnd),
    messageLoop k c cadu ms idx cor num = .ret e →
      (∀ i d, e = .early i d → (i = .notCorrected ∨ i = .uncorrectable)) ∧ ∀ d n, e = .done d n → d.length = cor.length := by
  intro ms
  induction ms with
  | nil =>
    intro idx cor num e h
    rw [messageLoop] at h
    simp only [Outcome.ret.injEq] at h
    rw [← h]
    refine ⟨by simp, ?_⟩
    intro d n e'; simp only [LoopEnd.done.injEq] at e'; rw [e'.1]
  | cons m ms ih =>
    intro idx cor num e h
    rw [messageLoop] at h
    split at h
    · simp only [Outcome.ret.injEq] at h
      rw [← h]
      refine ⟨?_, by simp⟩
      intro i d e'; simp only [LoopEnd.early.injEq] at e'; left; exact e'.1.symm
    · simp only at h
      split at h
      · simp only [Bind.bind] at h
        cases hr : removeParity c cadu with
        | panic => rw [hr] at h; simp [Outcome.bind] at h
        | ret d =>
          rw [hr] at h
          simp only [Outcome.bind, Outcome.ret.injEq] at h
          rw [← h]
          refine ⟨?_, by simp⟩
          intro i d e'; simp only [LoopEnd.early.injEq] at e'; right; exact e'.1.symm
      · split at h
        · simp at h
        · simp only [Bind.bind] at h
          rename_i message hz
          cases hw : writeMessage c.interleave.toNat idx message cor with
          | panic => rw [hw] at h; simp [Outcome.bind] at h
          | ret cor' =>
            rw [hw] at h
            obtain ⟨h1, h2⟩ := ih _ _ _ _ h
            exact ⟨h1, fun d n e' => by rw [h2 d n e', writeMessage_len _ _ _ _ _ hw]⟩

/-- Whatever the codec returns: an intact or corrected result is the input shortened by the parity bytes. -/
theorem perform_len (k : Codec) (c : Config) (d d' : List U8) (i : Integrity) (h : perform k c d = .ret (.ok (i, d'))) :
    i = .notCorrected ∨ i = .uncorrectable ∨
      ((i = .ok ∨ i = .corrected) ∧ d'.length = d.length - if c.removeParity then c.interleave.toNat * c.parityLen else 0) := by
  unfold perform at h
  split at h
  · simp at h
  · simp only [Bind.bind] at h
    generalize (if c.virtualFill = 0 then d else List.replicate c.virtualFill 0#8 ++ d) = cadu at h
    cases hdi : deinterleave cadu c.interleave with
    | panic => rw [hdi] at h; simp [Outcome.bind] at h
    | ret ms =>
      rw [hdi] at h
      simp only [Outcome.bind] at h
      cases hml : messageLoop k c cadu ms 0 (List.replicate (d.length + c.virtualFill) 0#8) 0 with
      | panic => rw [hml] at h; simp at h
      | ret e =>
        rw [hml] at h
        obtain ⟨h1, h2⟩ := messageLoop_len _ _ _ _ _ _ _ _ hml
        cases e with
        | early i' d'' =>
          simp only [Outcome.ret.injEq, Except.ok.injEq, Prod.mk.injEq] at h
          rcases h1 i' d'' rfl with hh | hh
          · left; rw [← h.1]; exact hh
          · right; left; rw [← h.1]; exact hh
        | done cor num =>
          have hl := h2 cor num rfl
          rw [List.length_replicate] at hl
          simp only at h
          right; right
          have hfin : ∀ z : List U8, (if z.length < c.virtualFill then Outcome.panic
              else if num = 0 then Outcome.ret (Except.ok (Integrity.ok, z.drop c.virtualFill))
              else Outcome.ret (Except.ok (Integrity.corrected, z.drop c.virtualFill))) = (Outcome.ret (Except.ok (i, d')) : Outcome (Except Error _)) →
              (i = .ok ∨ i = .corrected) ∧ d'.length = z.length - c.virtualFill := by
            intro z h
            by_cases hv : z.length < c.virtualFill
            · rw [if_pos hv] at h; simp at h
            · rw [if_neg hv] at h
              split at h <;> (simp only [Outcome.ret.injEq, Except.ok.injEq, Prod.mk.injEq] at h; rw [← h.1, ← h.2, List.length_drop]; exact ⟨by simp, rfl⟩)
          split at h
          · rename_i hrp
            cases hz : removeParity c cor with
            | panic => rw [hz] at h; simp at h
            | ret z =>
              rw [hz] at h
              obtain ⟨k1, k2⟩ := hfin z h
              have := removeParity_len _ _ _ hz
              exact ⟨k1, by rw [k2, if_pos hrp]; omega⟩
          · rename_i hrp
            obtain ⟨k1, k2⟩ := hfin cor h
            exact ⟨k1, by rw [k2, if_neg hrp]; omega⟩

/-- A job returns the data unchanged or shortened by the parity bytes. -/
theorem job_len (k : Codec) (o : Opts) (f g : Frame) (h : job k o f = .ret g) :
    g.data = f.data ∨ g.data.length = f.data.length - o.interleave.toNat * 32 := by
  unfold job at h
  split at h
  · simp only [Bind.bind] at h
    cases hp : perform k o.config f.data with
    | panic => rw [hp] at h; simp [Outcome.bind] at h
    | ret r =>
      rw [hp] at h
      simp only [Outcome.bind] at h
      cases r with
      | error e => simp at h
      | ok x =>
        obtain ⟨i, d'⟩ := x
        simp only [Outcome.ret.injEq] at h
        rw [← h]
        rcases perform_len _ _ _ _ _ hp with rfl | rfl | ⟨hi, hl⟩
        · left; simp [Integrity.isOk]
        · left; simp [Integrity.isOk]
        · right
          have : i.isOk = true := by rcases hi with rfl | rfl <;> rfl
          rw [if_pos this, hl]
          rfl
  · simp only [Outcome.ret.injEq] at h
    left; rw [h]

/-- A job returns the data unchanged or shortened by the parity bytes. -/
theorem job_exact (k : Codec) (o : Opts) (f g : Frame) (hf : f.integrity = none) (h : job k o f = .ret g) :
    g.data.length = if g.integrity = some .ok ∨ g.integrity = some .corrected then f.data.length - o.interleave.toNat * 32 else f.data.length := by
  unfold job at h
  split at h
  · simp only [Bind.bind] at h
    cases hp : perform k o.config f.data with
    | panic => rw [hp] at h; simp [Outcome.bind] at h
    | ret r =>
      rw [hp] at h
      simp only [Outcome.bind] at h
      cases r with
      | error e => simp at h
      | ok x =>
        obtain ⟨i, d'⟩ := x
        simp only [Outcome.ret.injEq] at h
        rw [← h]
        rcases perform_len _ _ _ _ _ hp with rfl | rfl | ⟨hi, hl⟩
        · simp [Integrity.isOk]
        · simp [Integrity.isOk]
        · have : i.isOk = true := by rcases hi with rfl | rfl <;> rfl
          simp only [this, ↓reduceIte, Option.some.injEq]
          rw [if_pos hi, hl]
          rfl
  · simp only [Outcome.ret.injEq] at h
    rw [← h, hf]; simp

end RS
end Ccsds
