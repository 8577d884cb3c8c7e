import Verif.Proofs.RsStage
import Verif.Props.ReedSolomon
/-!
# C42, C43: the threaded Reed-Solomon stage, for every schedule
-/
namespace Ccsds
open RsStage Spec

/-! ## C42  Order and completeness -/

/-- At every moment of every schedule the consumer has received the results of the first frames, in input order. -/
theorem C42_prefix (p : Params) (job : Frame → Outcome Frame) (input : List Frame) (s : State)
    (h : Reach p job input s) : s.got.map Outcome.ret <+: input.map job := by
  obtain ⟨c, I⟩ := inv_reach p job input s h
  exact I.pre

/-- The iterator returns `None` only when the results of all frames have been delivered. -/
theorem C42_none (p : Params) (job : Frame → Outcome Frame) (input : List Frame) (s : State)
    (h : Reach p job input s) (he : s.cons = .ended) : s.got.map Outcome.ret = input.map job := by
  obtain ⟨c, I⟩ := inv_reach p job input s h
  obtain ⟨hd, ho⟩ := I.ended he
  obtain ⟨hs, hj⟩ := I.dispExit hd
  have hn := I.subExit hs
  have hop := I.opened
  have hle := I.le
  rw [State.open, hd, hj, hs] at hop
  have hz : s.next - c = 0 := by
    have := congrArg List.length hop
    simpa using this.symm
  have o := I.out (by rw [he]; simp)
  rw [State.inFlight, ho, hd] at o
  rw [show c = input.length by omega, List.take_length] at o
  simpa using o

/-- The process aborts only if the job of an input frame panics; `expect("failed to send frame")` never fires. -/
theorem C42_abort (p : Params) (job : Frame → Outcome Frame) (input : List Frame) (s : State) (a : Abort)
    (h : Reach p job input s) (ha : s.aborted = some a) :
    ∃ i f, a = .jobPanic i ∧ input[i]? = some f ∧ job f = .panic := by
  obtain ⟨c, I⟩ := inv_reach p job input s h
  exact I.abort a ha

/-- When nothing can move any more and the consumer did not drop the iterator, it has every result exactly once, in order. -/
theorem C42_complete (p : Params) (hw : 1 ≤ p.workers) (job : Frame → Outcome Frame) (input : List Frame) (s : State)
    (h : Reach p job input s) (hno : ∀ f ∈ input, job f ≠ .panic) (hstuck : ∀ t, ¬ Step p job input s t)
    (hc : s.cons ≠ .gone) : s.cons = .ended ∧ s.got.map Outcome.ret = input.map job := by
  have ha : s.aborted = none := by
    cases ha : s.aborted with
    | none => rfl
    | some a =>
      obtain ⟨i, f, _, hf, hp⟩ := C42_abort p job input s a h ha
      exact absurd hp (hno f (List.mem_of_getElem? hf))
  rcases progress p hw job input s h ha with ⟨t, st, _⟩ | hf
  · exact absurd st (hstuck t)
  · have he : s.cons = .ended := by
      cases he : s.cons with
      | ended => rfl
      | gone => exact absurd he hc
      | reading => exact absurd he hf.2.2.2.2
    exact ⟨he, C42_none p job input s h he⟩

/-- The stage with its actual job: for frames that are fill or fit the code, no schedule aborts the process, and what the
consumer sees is the sequential result `outs`. -/
theorem C42_rs (p : Params) (k : Codec) (code : List U8 → Prop) (hk : Bounded k code) (o : RS.Opts) (input : List Frame)
    (hI : 0 < o.interleave.toNat) (hvf : o.virtualFill ≤ 223 * o.interleave.toNat)
    (hlen : ∀ f ∈ input, f.header.vcid ≠ 63 → f.data.length + o.virtualFill = 255 * o.interleave.toNat) :
    ∃ outs : List Frame, outs.map Outcome.ret = input.map (RS.job k o) ∧
      ∀ s, Reach p (RS.job k o) input s → s.aborted = none ∧ s.got <+: outs ∧ (s.cons = .ended → s.got = outs) := by
  have hno : ∀ f ∈ input, ∃ g, RS.job k o f = .ret g := by
    intro f hf
    by_cases hv : f.header.vcid = 63
    · exact ⟨f, C44_fill k o f hv⟩
    · cases e : RS.job k o f with
      | ret g => exact ⟨g, rfl⟩
      | panic => exact absurd (hlen f hf hv) ((C44_panic_iff k code hk o f hv hI hvf).1 e)
  have hinj : ∀ a b : List Frame, a.map Outcome.ret = b.map Outcome.ret → a = b := by
    intro a b hab
    exact (List.map_inj_right (fun x y h => by cases h; rfl)).1 hab
  obtain ⟨outs, ho⟩ : ∃ outs : List Frame, outs.map Outcome.ret = input.map (RS.job k o) := by
    clear hlen
    induction input with
    | nil => exact ⟨[], rfl⟩
    | cons f fs ih =>
      obtain ⟨g, hg⟩ := hno f (by simp)
      obtain ⟨gs, hgs⟩ := ih (fun x hx => hno x (by simp [hx]))
      exact ⟨g :: gs, by simp [hg, hgs]⟩
  refine ⟨outs, ho, fun s hs => ⟨?_, ?_, ?_⟩⟩
  · cases ha : s.aborted with
    | none => rfl
    | some a =>
      obtain ⟨i, f, _, hf, hp⟩ := C42_abort p _ input s a hs ha
      obtain ⟨g, hg⟩ := hno f (List.mem_of_getElem? hf)
      rw [hg] at hp; cases hp
  · have := C42_prefix p _ input s hs
    rw [← ho] at this
    obtain ⟨t, ht⟩ := this
    have hlen := congrArg List.length ht
    simp only [List.length_append, List.length_map] at hlen
    refine ⟨outs.drop s.got.length, ?_⟩
    have h1 : s.got = outs.take s.got.length := by
      apply hinj
      have := congrArg (List.take s.got.length) ht
      rw [List.take_left' (by simp)] at this
      rw [this, List.map_take]
    conv => lhs; lhs; rw [h1]
    exact List.take_append_drop _ _
  · intro he
    apply hinj
    rw [ho]
    exact C42_none p _ input s hs he

/-! ## C43  No deadlock, no endless run -/

/-- In every reachable state some thread can move without the consumer giving up, or everything has finished. -/
theorem C43_no_deadlock (p : Params) (hw : 1 ≤ p.workers) (job : Frame → Outcome Frame) (input : List Frame) (s : State)
    (h : Reach p job input s) (ha : s.aborted = none) :
    (∃ t, Step p job input s t ∧ (t.cons = .gone → s.cons = .gone)) ∨ s.Finished :=
  progress p hw job input s h ha

/-- With a consumer that merely pauses, the stage keeps working until the output channel is full or all is done. -/
theorem C43_backpressure (p : Params) (hw : 1 ≤ p.workers) (job : Frame → Outcome Frame) (input : List Frame) (s : State)
    (h : Reach p job input s) (ha : s.aborted = none)
    (hm : ∀ t, Step p job input s t → t.cons ≠ s.cons ∨ t.got ≠ s.got) :
    (s.sub = .exited ∧ s.queued = [] ∧ s.running = [] ∧ s.disp = .exited) ∨
    (∃ g, s.disp = .sendOut g ∧ s.cons ≠ .gone ∧ s.outCh.length = p.bufferSize) :=
  inside_progress p hw job input s h ha (fun ⟨t, a, b, c⟩ => (hm t a).elim (· b) (· c))

/-- `n` steps from `s` to `t`. -/
inductive Steps (p : Params) (job : Frame → Outcome Frame) (input : List Frame) : Nat → State → State → Prop where
  | zero (s : State) : Steps p job input 0 s s
  | succ {n : Nat} {s t u : State} : Steps p job input n s t → Step p job input t u → Steps p job input (n + 1) s u

/-- No run has more than `9 * frames + 4` steps. -/
theorem C43_finite (p : Params) (job : Frame → Outcome Frame) (input : List Frame) (n : Nat) (s : State)
    (h : Steps p job input n State.init s) : n ≤ 9 * input.length + 4 := by
  have : n + s.measure input.length ≤ State.init.measure input.length := by
    generalize State.init = s0 at h
    induction h with
    | zero => omega
    | succ _ st ih => have := measure_step p job input _ _ st; omega
  have h0 : State.init.measure input.length = 9 * input.length + 4 := by
    simp [State.measure, State.init]
  omega

/-- A run to completion exists from every reachable state in which the iterator was not dropped (the hypotheses of
`C42_complete` are met, for every input). -/
theorem C43_completes (p : Params) (hw : 1 ≤ p.workers) (job : Frame → Outcome Frame) (input : List Frame)
    (hno : ∀ f ∈ input, job f ≠ .panic) (s : State) (h : Reach p job input s) (hc : s.cons ≠ .gone) :
    ∃ n t, Steps p job input n s t ∧ t.cons = .ended ∧ t.got.map Outcome.ret = input.map job := by
  induction hm : s.measure input.length using Nat.strongRecOn generalizing s with
  | ind m ih =>
    have ha : s.aborted = none := by
      cases ha : s.aborted with
      | none => rfl
      | some a =>
        obtain ⟨i, f, _, hf, hp⟩ := C42_abort p job input s a h ha
        exact absurd hp (hno f (List.mem_of_getElem? hf))
    rcases progress p hw job input s h ha with ⟨t, st, hg⟩ | hf
    · have hlt := measure_step p job input s t st
      obtain ⟨n, u, hu, r⟩ := ih _ (by omega) t (.step h st) (fun x => hc (hg x)) rfl
      refine ⟨n + 1, u, ?_, r⟩
      clear r ih
      have : ∀ n t u, Steps p job input n t u → Step p job input s t → Steps p job input (n + 1) s u := by
        intro n t u hs
        induction hs with
        | zero => intro st; exact .succ (.zero s) st
        | succ _ st2 ih2 => intro st; exact .succ (ih2 st) st2
      exact this n t u hu st
    · have he : s.cons = .ended := by
        cases he : s.cons with
        | ended => rfl
        | gone => exact absurd he hc
        | reading => exact absurd he hf.2.2.2.2
      exact ⟨0, s, .zero s, he, C42_none p job input s h he⟩

/-- Job 1 may finish before job 0: the schedules really do reorder the computation. -/
example (f g : Frame) : ∃ s, Reach ⟨1, 2⟩ Outcome.ret [f, g] s ∧ s.fut 1 = .full g ∧ s.fut 0 = .empty ∧ s.got = [] := by
  have r1 := Reach.step (p := ⟨1, 2⟩) (job := Outcome.ret) (input := [f, g]) .init (.pull _ rfl rfl (by simp [State.init]))
  have r2 := r1.step (.pushJob _ 0 rfl rfl (by simp [State.init]) (by simp [State.init]))
  have r3 := r2.step (.pull _ rfl rfl (by simp [State.init]))
  have r4 := r3.step (.start _ 1 rfl (by simp [State.init]) (by simp [State.init]))
  have r5 := r4.step (.finish _ 1 g g rfl (by simp [State.init]) rfl rfl (.inl rfl))
  exact ⟨_, r5, by simp [State.init]⟩

end Ccsds
