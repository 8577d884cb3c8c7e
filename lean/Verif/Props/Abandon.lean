import Verif.Props.RsStage
import Verif.Props.EndToEnd
import Verif.Props.Pipeline
/-!
# C72, C73: dropping the output of the Reed-Solomon stage, and a panic of its input
-/
namespace Ccsds
open RsStage

/-! ## C72 -/

/-- Full statement: once the consumer has dropped the iterator, the stage takes only a bounded number of further frames from its input, whatever the
number of frames there are (the bound may depend on the buffer size and on the number of threads). -/
def C72_full : Prop :=
  ∀ p : Params, 1 ≤ p.workers → ∃ K : Nat, ∀ (job : Frame → Outcome Frame) (input : List Frame) (s t : State) (n : Nat),
    (∀ f ∈ input, job f ≠ .panic) → Reach p job input s → s.cons = .gone → Steps p job input n s t → t.next ≤ s.next + K

theorem steps_cons {p : Params} {job : Frame → Outcome Frame} {input : List Frame} {s : State} {n : Nat} {t u : State}
    (hs : Steps p job input n t u) : Step p job input s t → Steps p job input (n + 1) s u := by
  induction hs with
  | zero => intro st; exact .succ (.zero s) st
  | succ _ st2 ih2 => intro st; exact .succ (ih2 st) st2

theorem steps_append {p : Params} {job : Frame → Outcome Frame} {input : List Frame} {r s t : State} {k n : Nat}
    (h : Steps p job input k r s) (hs : Steps p job input n s t) : Steps p job input (k + n) r t := by
  induction hs with
  | zero => exact h
  | succ _ st ih => exact .succ (ih h) st

theorem reach_steps {p : Params} {job : Frame → Outcome Frame} {input : List Frame} {s : State} {n : Nat} {t : State}
    (hs : Steps p job input n s t) (h : Reach p job input s) : Reach p job input t := by
  induction hs with
  | zero => exact h
  | succ _ st ih => exact .step (ih h) st

theorem not_aborted {p : Params} {job : Frame → Outcome Frame} {input : List Frame} (hno : ∀ f ∈ input, job f ≠ .panic)
    {s : State} (h : Reach p job input s) : s.aborted = none := by
  cases ha : s.aborted with
  | none => rfl
  | some a =>
    obtain ⟨i, f, _, hf, hp⟩ := C42_abort p job input s a h ha
    exact absurd hp (hno f (List.mem_of_getElem? hf))

/-- What happens instead: whether or not the consumer has gone away, when nothing can move any more every frame of the input was taken, every job was
run and all threads have ended. -/
theorem C72_takes_all (p : Params) (hw : 1 ≤ p.workers) (job : Frame → Outcome Frame) (input : List Frame) (hno : ∀ f ∈ input, job f ≠ .panic)
    (s : State) (h : Reach p job input s) (hstuck : ∀ t, ¬ Step p job input s t) : s.next = input.length ∧ s.Finished ∧ s.aborted = none := by
  have ha := not_aborted hno h
  rcases progress p hw job input s h ha with ⟨t, st, _⟩ | hf
  · exact absurd st (hstuck t)
  · obtain ⟨c, I⟩ := inv_reach p job input s h
    exact ⟨I.subExit hf.1, hf, ha⟩

/-- What holds of the property: a consumer that goes away costs no thread and does not kill the process. From every state in which it has gone the stage
can run to the end of all its threads, every run has at most `9 * frames + 4` steps, wherever a run stops all threads have ended, and what was delivered
stays the results of the first frames. Missing: that it stops early. -/
theorem C72_partial (p : Params) (hw : 1 ≤ p.workers) (job : Frame → Outcome Frame) (input : List Frame) (hno : ∀ f ∈ input, job f ≠ .panic)
    (s : State) (h : Reach p job input s) (hg : s.cons = .gone) :
    (∃ n t, Steps p job input n s t ∧ t.Finished ∧ t.cons = .gone ∧ t.next = input.length) ∧
    (∀ n t, Steps p job input n s t → n ≤ 9 * input.length + 4 ∧ t.aborted = none ∧ t.cons = .gone ∧ t.got = s.got ∧
      ((∀ u, ¬ Step p job input t u) → t.Finished)) := by
  have hgone : ∀ n t, Steps p job input n s t → t.cons = .gone ∧ t.got = s.got := by
    intro n t hs
    clear h
    induction hs with
    | zero => exact ⟨hg, rfl⟩
    | succ _ st ih => cases st <;> simp_all
  constructor
  · clear hgone
    induction hm : s.measure input.length using Nat.strongRecOn generalizing s with
    | ind m ih =>
      rcases progress p hw job input s h (not_aborted hno h) with ⟨t, st, _⟩ | hf
      · have hlt := measure_step p job input s t st
        have hgt : t.cons = .gone := by cases st <;> simp_all
        obtain ⟨n, u, hu, r⟩ := ih _ (by omega) t (.step h st) hgt rfl
        exact ⟨n + 1, u, steps_cons hu st, r⟩
      · obtain ⟨c, I⟩ := inv_reach p job input s h
        exact ⟨0, s, .zero s, hf, hg, I.subExit hf.1⟩
  · intro n t hs
    have ht := reach_steps hs h
    refine ⟨?_, not_aborted hno ht, (hgone n t hs).1, (hgone n t hs).2, fun hst => (C72_takes_all p hw job input hno t ht hst).2.1⟩
    obtain ⟨k, hk⟩ : ∃ k, Steps p job input k State.init s := by
      clear hs hgone ht
      clear hg
      induction h with
      | init => exact ⟨0, .zero _⟩
      | step _ st ih => obtain ⟨k, hk⟩ := ih; exact ⟨k + 1, .succ hk st⟩
    have hadd : ∀ n t, Steps p job input n s t → Steps p job input (k + n) State.init t := by
      intro n t hs
      exact steps_append hk hs
    have := C43_finite p job input _ t (hadd n t hs)
    omega

/-- The property is false: a stage whose consumer goes away at once still takes every frame. -/
theorem C72_violated : ¬ C72_full := by
  intro h
  obtain ⟨K, hK⟩ := h ⟨1, 1⟩ (by decide)
  let f : Frame := ⟨⟨0, 0, 0, 0⟩, 0, none, []⟩
  let input := List.replicate (K + 1) f
  have hno : ∀ x ∈ input, Outcome.ret x ≠ .panic := by intro x _; simp
  have r1 : Reach ⟨1, 1⟩ Outcome.ret input { State.init with cons := .gone, outCh := [] } := Reach.step .init (.consDrop _ rfl rfl)
  obtain ⟨⟨n, t, ht, _, _, hn⟩, _⟩ := C72_partial ⟨1, 1⟩ (by decide) Outcome.ret input hno _ r1 rfl
  have := hK Outcome.ret input _ t n hno r1 rfl ht
  have hl : input.length = K + 1 := List.length_replicate
  have h0 : ({ State.init with cons := .gone, outCh := [] } : State).next = 0 := rfl
  rw [hn, hl, h0] at this
  omega

/-! ## C73 -/

/-- Full statement: a consumer of a pipeline with Reed-Solomon sees `None` only if the stream ended, not if the decoding of the frames panicked. -/
def C73_full : Prop :=
  ∀ (b : Build) (k : Codec) (c : Pipeline.Config) (r : Reader) (s : State), Pipeline.Runs b k c r s → s.cons = .ended →
    ∃ frames, Pipeline.Outputs b c r frames true

/-- Without overflow checks no decoding of frames panics. -/
theorem outputs_ended (b : Build) (hb : b.overflowChecks = false) (c : Pipeline.Config) (r : Reader) (frames : List Frame) (ended : Bool)
    (h : Pipeline.Outputs b c r frames ended) : ended = true := by
  have hadd : ∀ x y : U32, ∃ z, b.add x y = .ret z := fun x y => ⟨x + y, by unfold Build.add; rw [hb]; rfl⟩
  have hsub : ∀ x y : U32, ∃ z, b.sub x y = .ret z := fun x y => ⟨x - y, by unfold Build.sub; rw [hb]; rfl⟩
  have hm : ∀ x y, missingFrames b x y ≠ .panic := by
    intro x y
    unfold missingFrames
    generalize VCDUHeader.COUNTER_MAX = m
    obtain ⟨z1, e1⟩ := hadd y 1#32
    obtain ⟨z2, e2⟩ := hsub m y
    obtain ⟨z3, e3⟩ := hadd z2 x
    obtain ⟨z4, e4⟩ := hsub x y
    obtain ⟨z5, e5⟩ := hsub z4 1#32
    rw [e1, e2, e4]
    by_cases c1 : x = y
    · rw [if_pos c1]; simp
    · rw [if_neg c1]
      by_cases c2 : y = m
      · rw [if_pos c2]
        show (if x = 0#32 then Outcome.ret 0#32 else if x.toNat < y.toNat then b.add z2 x else b.sub z4 1#32) ≠ .panic
        rw [e3, e5]
        split
        · simp
        · split <;> simp
      · rw [if_neg c2]
        show (if x = z1 then Outcome.ret 0#32 else if x.toNat < y.toNat then b.add z2 x else b.sub z4 1#32) ≠ .panic
        rw [e3, e5]
        split
        · simp
        · split <;> simp
  have hn : ∀ st, FrameDecoder.next b st ≠ .panic := by
    intro st h
    unfold FrameDecoder.next at h
    split at h
    · cases h
    · split at h
      · split at h
        · simp only [Bind.bind, Outcome.bind] at h
          split at h
          · cases h
          · exact hm _ _ (by assumption)
        · simp only [Bind.bind, Outcome.bind] at h
          cases h
      · cases h
  obtain ⟨e, hy, he⟩ := h
  clear hm hadd hsub hb
  generalize Pipeline.start c r = st at hy
  induction hy with
  | done => simpa using he.symm
  | stop => simpa using he.symm
  | panicked _ h => exact absurd h (hn _)
  | frame _ _ _ ih => exact ih he

/-- What holds: when the consumer sees `None`, it has the result of every frame that was decoded before the end, or before the panic; and in a build
without overflow checks it was the end. -/
theorem C73_partial (b : Build) (k : Codec) (c : Pipeline.Config) (r : Reader) (s : State) (h : Pipeline.Runs b k c r s) (hs : s.cons = .ended) :
    ∃ frames ended, Pipeline.Outputs b c r frames ended ∧
      (∃ o p, c.rs = some (o, p) ∧ s.got.map Outcome.ret = frames.map (RS.job k o)) ∧
      (b.overflowChecks = false → ended = true) := by
  obtain ⟨o, p, frames, ended, ho, hout, hr⟩ := h
  exact ⟨frames, ended, hout, ⟨o, p, ho, C42_none p _ frames s hr hs⟩, fun hb => outputs_ended b hb c r frames ended hout⟩

/-- A panic is always hidden: if the decoding of frames panics after `frames`, and their jobs do not panic, a run in which the consumer gets their
results and then `None` exists, and in every run, wherever it stops with the consumer still there, it has got these results and `None`. -/
theorem C73_hidden (b : Build) (k : Codec) (c : Pipeline.Config) (r : Reader) (o : RS.Opts) (p : Params) (frames : List Frame) (hw : 1 ≤ p.workers)
    (hc : c.rs = some (o, p)) (hout : Pipeline.Outputs b c r frames false) (hno : ∀ f ∈ frames, RS.job k o f ≠ .panic) :
    (∃ s, Pipeline.Runs b k c r s ∧ s.cons = .ended ∧ s.got.map Outcome.ret = frames.map (RS.job k o)) ∧
    (∀ s, Pipeline.Runs b k c r s → (∀ t, ¬ Step p (RS.job k o) frames s t) → s.cons ≠ .gone →
      s.cons = .ended ∧ s.got.map Outcome.ret = frames.map (RS.job k o)) := by
  constructor
  · obtain ⟨n, t, hst, ht1, ht2⟩ := C43_completes p hw (RS.job k o) frames hno State.init .init (by simp [State.init])
    exact ⟨t, ⟨o, p, frames, false, hc, hout, reach_steps hst .init⟩, ht1, ht2⟩
  · rintro s ⟨o', p', frames', ended', hc', hout', hr⟩ hstuck hg
    rw [hc] at hc'
    cases hc'
    obtain ⟨rfl, _⟩ := C52_deterministic b c r frames' frames ended' false hout' hout
    exact C42_complete p hw _ frames' s hr hno hstuck hg

/-! The witness is the nominal rollover of a 24-bit frame counter, 16777215 to 0, with nothing missing. -/
namespace AbandonEx

def fr0 : List U8 := [0x67#8, 0x6b#8, 0xff#8, 0xff#8, 0xff#8, 0#8] ++ List.replicate 26 7#8
def fr1 : List U8 := [0x67#8, 0x6b#8, 0#8, 0#8, 0#8, 0#8] ++ List.replicate 26 8#8
def stream : List U8 := Sync.ASM ++ fr0 ++ (Sync.ASM ++ fr1)
def cfg : Pipeline.Config := ⟨false, some (⟨1, 223, true, true⟩, ⟨4, 2⟩), 32⟩
def reader : Reader := ⟨[.data stream], .eof⟩

theorem outputs : ∃ frames, Pipeline.Outputs ⟨true⟩ cfg reader frames false ∧ frames.map (·.data) = [fr0] := by
  obtain ⟨frames, ended, h1, h2, h3, h4, h5⟩ := C52_roundtrip ⟨true⟩ false reader stream 32 [] [] [fr0, fr1]
    ⟨by intro e he
        simp only [reader, List.mem_cons, List.not_mem_nil, or_false] at he
        subst he; exact ⟨_, by decide +kernel, rfl⟩, by simp [reader, evBytes, Ev.bytes], rfl⟩
    (by decide +kernel) (by decide +kernel)
    (by intro d hd; exact Option.isSome_iff_exists.1 ((by decide +kernel : ∀ d ∈ [fr0, fr1], (VCDUHeader.decode d).isSome = true) d hd))
    (by decide +kernel)
    ⟨by omega, List.prefix_iff_eq_take.2 (by decide +kernel), by intro j _ hj; simp at hj⟩
    (by
      intro i hi hoc
      have := hoc.length_le
      rw [List.length_drop, show (Spec.bits Sync.ASM).length = 32 from by decide, show (Spec.bits stream).length = 576 from by decide +kernel] at this
      simp only [List.length_cons, List.length_nil] at hi
      omega)
  have key : ∀ f, ¬ FrameOf ⟨true⟩ (([fr0, fr1].take 1).map blk) (blk fr1) f := by
    rintro f ⟨e1, _, _, e2⟩
    have d1 : VCDUHeader.decode (blk fr1).data = some ⟨1#8, 0x9d#16, 0x2b#16, 0#32⟩ := by decide +kernel
    rw [d1] at e1
    have e1 := Option.some.inj e1
    have d2 : lastOfChannel (([fr0, fr1].take 1).map blk) 0x2b#16 = some ⟨1#8, 0x9d#16, 0x2b#16, 0xffffff#32⟩ := by decide +kernel
    rw [← e1] at e2
    simp only [d2] at e2
    have d3 : missingFrames ⟨true⟩ 0#32 0xffffff#32 = .panic := by decide +kernel
    rw [d3, if_neg (by decide)] at e2
    cases e2
  have hen : frames.length ≤ 1 := by
    have : frames.length ≤ 2 := by
      have := congrArg List.length h2
      simp at this; omega
    have hne : frames.length ≠ 2 := by
      intro e
      have hf := List.getElem?_eq_getElem (l := frames) (i := 1) (by omega)
      exact key _ (h3 1 fr1 _ rfl hf)
    omega
  have he : ended = false := by
    cases ended with
    | false => rfl
    | true => have := h4 rfl; simp at this; omega
  subst he
  obtain ⟨_, d, h, q, g1, _, g3, g4, _⟩ := h5 rfl
  have hl : frames.length = 1 := by
    have : frames.length ≠ 0 := by
      intro e
      rw [e] at g3
      simp [lastOfChannel] at g3
    omega
  refine ⟨frames, h1, ?_⟩
  rw [h2, hl]; rfl

theorem hidden : ∃ s, Pipeline.Runs ⟨true⟩ (bddCodec repCode) cfg reader s ∧ s.cons = .ended ∧ s.got.length = 1 := by
  obtain ⟨frames, h1, h2⟩ := outputs
  have hl : frames.length = 1 := by have := congrArg List.length h2; simpa using this
  obtain ⟨⟨s, hs, he, hg⟩, _⟩ := C73_hidden ⟨true⟩ (bddCodec repCode) cfg reader ⟨1, 223, true, true⟩ ⟨4, 2⟩ frames (by decide) rfl h1 (by
    intro f hf hp
    have hd : f.data = fr0 := by
      have := List.mem_map_of_mem (f := (·.data)) hf
      rw [h2] at this
      simpa using this
    by_cases hv : f.header.vcid = 63
    · unfold RS.job at hp
      simp [hv, VCDUHeader.FILL] at hp
    · have := (C44_panic_iff (bddCodec repCode) repCode repCode_bounded ⟨1, 223, true, true⟩ f hv (by decide) (by decide)).1 hp
      rw [hd] at this
      exact this (by decide +kernel))
  refine ⟨s, hs, he, ?_⟩
  have := congrArg List.length hg
  simpa [hl] using this

end AbandonEx

/-- The property is false: the nominal rollover of a frame counter, with nothing missing, ends the stream. -/
theorem C73_violated : ¬ C73_full := by
  intro h
  obtain ⟨s, hs, he, _⟩ := AbandonEx.hidden
  obtain ⟨frames, hf⟩ := h _ _ _ _ s hs he
  obtain ⟨frames', hf', _⟩ := AbandonEx.outputs
  have := (C52_deterministic _ _ _ _ _ _ _ hf hf').2
  cases this

end Ccsds
