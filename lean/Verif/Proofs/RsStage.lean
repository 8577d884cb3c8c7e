import Verif.Model.RsStage
/-! Invariant and termination measure of the Reed-Solomon thread system. -/
namespace Ccsds.RsStage

/-- Jobs whose result the dispatcher has not taken yet, in order. -/
def State.open (s : State) : List Nat :=
  (match s.disp with | .recvFut i => [i] | _ => []) ++ s.jobsCh ++ (match s.sub with | .sending i => [i] | _ => [])

/-- Results taken by the dispatcher and not yet by the consumer. -/
def State.inFlight (s : State) : List Frame :=
  s.outCh ++ (match s.disp with | .sendOut g => [g] | _ => [])

structure Inv (p : Params) (job : Frame → Outcome Frame) (input : List Frame) (c : Nat) (s : State) : Prop where
  le : c ≤ s.next
  bound : s.next ≤ input.length
  opened : s.open = List.range' c (s.next - c)
  out : s.cons ≠ .gone → (s.got ++ s.inFlight).map Outcome.ret = (input.take c).map job
  pre : s.got.map Outcome.ret <+: input.map job
  gone : s.cons = .gone → s.outCh = []
  ended : s.cons = .ended → s.disp = .exited ∧ s.outCh = []
  fut : ∀ i g, s.fut i = .full g → i < s.next ∧ (input[i]?).map job = some (.ret g)
  notClosed : ∀ i, s.fut i ≠ .closed
  nodup : (s.queued ++ s.running).Nodup
  poolLe : ∀ i, i ∈ s.queued ++ s.running → c ≤ i ∧ i < s.next ∧ s.fut i = .empty
  cover : ∀ i, c ≤ i → i < s.next → i ∉ s.queued ++ s.running → ∃ g, s.fut i = .full g
  dispExit : s.disp = .exited → s.sub = .exited ∧ s.jobsCh = []
  subExit : s.sub = .exited → s.next = input.length
  jobsCap : s.jobsCh.length ≤ p.bufferSize * 2
  outCap : s.outCh.length ≤ p.bufferSize
  abort : ∀ a, s.aborted = some a → ∃ i f, a = .jobPanic i ∧ input[i]? = some f ∧ job f = .panic

theorem inv_init (p : Params) (job : Frame → Outcome Frame) (input : List Frame) : Inv p job input 0 State.init := by
  constructor <;> simp [State.init, State.open, State.inFlight]

theorem range'_snoc (c m : Nat) (h : c ≤ m) : List.range' c (m - c) ++ [m] = List.range' c (m + 1 - c) := by
  rw [show m + 1 - c = (m - c) + 1 by omega, List.range'_concat]
  simp; omega

theorem inv_step (p : Params) (job : Frame → Outcome Frame) (input : List Frame) (c : Nat) (s t : State)
    (h : Inv p job input c s) (st : Step p job input s t) : ∃ c', Inv p job input c' t := by
  obtain ⟨le, bound, opened, out, pre, gone, ended, fut, notClosed, nodup, poolLe, cover, dispExit, subExit, jobsCap, outCap, abort⟩ := h
  simp only [List.mem_append, State.open, State.inFlight] at *
  cases st with
  | pull a b d =>
    refine ⟨c, ⟨by simp; omega, by simp; omega, ?_, out, pre, gone, ended, ?_, notClosed, ?_, ?_, ?_, ?_, by simp, jobsCap, outCap, abort⟩⟩
    · simp only [State.open]
      rw [b] at opened
      simp only [List.append_nil] at opened
      rw [opened, range'_snoc _ _ le]
    · intro i g hg
      obtain ⟨x, y⟩ := fut i g hg
      exact ⟨by simp; omega, y⟩
    · have : s.next ∉ s.queued ++ s.running := by
        intro hm
        have := (poolLe _ (by simpa using hm)).2.1
        omega
      simp only [List.nodup_append, List.mem_append, List.mem_singleton, List.nodup_cons] at *
      simp only [not_or] at this
      grind
    · intro i hi
      simp only [List.mem_append, List.mem_singleton] at hi
      by_cases e : i = s.next
      · subst e
        refine ⟨le, by simp, ?_⟩
        cases hf : s.fut s.next with
        | empty => rfl
        | full g => have := (fut _ _ hf).1; omega
        | closed => exact absurd hf (notClosed _)
      · obtain ⟨x, y, z⟩ := poolLe i (by grind)
        exact ⟨x, by simp; omega, z⟩
    · intro i h1 h2 h3
      simp only [List.mem_append, List.mem_singleton] at h3 h2
      exact cover i h1 (by grind) (by grind)
    · intro hd
      have := (dispExit hd).1
      simp [b] at this
  | endInput a b d =>
    refine ⟨c, ⟨le, bound, ?_, out, pre, gone, ended, fut, notClosed, nodup, by simpa using poolLe, by simpa using cover, ?_, ?_, jobsCap, outCap, abort⟩⟩
    · simpa [State.open, b] using opened
    · intro hd; exact ⟨rfl, (dispExit hd).2⟩
    · intro _; exact d
  | pushJob i a b d e =>
    refine ⟨c, ⟨le, bound, ?_, out, pre, gone, ended, fut, notClosed, nodup, by simpa using poolLe, by simpa using cover, ?_, ?_, by simp; omega, outCap, abort⟩⟩
    · simpa [State.open, b] using opened
    · intro hd; exact absurd hd d
    · intro hd; simp at hd
  | handJob i a b d e =>
    have hj : s.jobsCh = [] := by
      rw [d] at jobsCap
      exact List.eq_nil_of_length_eq_zero (by omega)
    refine ⟨c, ⟨le, bound, ?_, ?_, pre, gone, ?_, fut, notClosed, nodup, by simpa using poolLe, by simpa using cover, ?_, ?_, jobsCap, outCap, abort⟩⟩
    · simpa [State.open, b, e, hj] using opened
    · simpa [State.inFlight, e] using out
    · intro hc; have := (ended hc).1; rw [e] at this; cases this
    · intro hd; simp at hd
    · intro hd; simp at hd
  | sendFails i a b d =>
    have := (dispExit d).1
    rw [b] at this; cases this
  | start i a b d =>
    have hp : (s.queued.erase i ++ (s.running ++ [i])).Perm (s.queued ++ s.running) := by
      have := List.perm_cons_erase b
      grind
    refine ⟨c, ⟨le, bound, opened, out, pre, gone, ended, fut, notClosed, ?_, ?_, ?_, dispExit, subExit, jobsCap, outCap, abort⟩⟩
    · exact hp.nodup_iff.2 nodup
    · intro j hj
      exact poolLe j (by simpa using hp.mem_iff.1 hj)
    · intro j h1 h2 h3
      exact cover j h1 h2 (fun x => h3 (hp.mem_iff.2 (by simpa using x)))
  | finish i f g a b d e r =>
    have hi : i ∉ s.queued ∧ i ∉ s.running.erase i := by
      rw [List.nodup_append] at nodup
      refine ⟨fun hq => nodup.2.2 i hq i b rfl, fun hm => ?_⟩
      exact (List.Nodup.not_mem_erase nodup.2.1) hm
    have hsub : ∀ j, j ∈ s.running.erase i → j ∈ s.running := fun j hj => List.mem_of_mem_erase hj
    refine ⟨c, ⟨le, bound, opened, out, pre, gone, ended, ?_, ?_, ?_, ?_, ?_, dispExit, subExit, jobsCap, outCap, abort⟩⟩
    · intro j g' hj
      dsimp only at hj ⊢
      by_cases hji : j = i
      · subst hji
        simp only [if_true, Fut.full.injEq] at hj
        subst hj
        exact ⟨(poolLe j (Or.inr b)).2.1, by rw [d]; simp [e]⟩
      · rw [if_neg hji] at hj
        exact fut j g' hj
    · intro j
      dsimp only
      split
      · simp
      · exact notClosed j
    · rw [List.nodup_append] at nodup ⊢
      exact ⟨nodup.1, nodup.2.1.erase _, fun x hx y hy => nodup.2.2 x hx y (hsub y hy)⟩
    · intro j hj
      simp only [List.mem_append] at hj
      have hji : j ≠ i := by rintro rfl; exact hj.elim hi.1 hi.2
      dsimp only
      rw [if_neg hji]
      exact poolLe j (hj.imp id (hsub j))
    · intro j h1 h2 h3
      simp only [List.mem_append] at h3
      dsimp only
      by_cases hji : j = i
      · subst hji; exact ⟨g, by simp⟩
      · rw [if_neg hji]
        refine cover j h1 h2 (fun hm => h3 ?_)
        exact hm.imp id (fun hm => (List.mem_erase_of_ne hji).2 hm)
  | finishNoReceiver i f g a b d e r =>
    exfalso
    apply r
    obtain ⟨h1, h2, _⟩ := poolLe i (Or.inr b)
    have : i ∈ List.range' c (s.next - c) := by
      rw [List.mem_range'_1]; omega
    rw [← opened] at this
    simp only [List.mem_append] at this
    rcases this with (h | h) | h
    · right; right
      split at h <;> simp_all
    · exact Or.inr (Or.inl h)
    · left
      split at h <;> simp_all
  | jobPanics i f a b d e =>
    refine ⟨c, ⟨le, bound, opened, out, pre, gone, ended, fut, notClosed, nodup, by simpa using poolLe,
      by simpa using cover, dispExit, subExit, jobsCap, outCap, ?_⟩⟩
    intro x hx
    simp only [Option.some.injEq] at hx
    exact ⟨i, f, hx.symm, d, e⟩
  | recvJob i r a b d =>
    refine ⟨c, ⟨le, bound, ?_, ?_, pre, gone, ?_, fut, notClosed, nodup, by simpa using poolLe, by simpa using cover, ?_, subExit, by rw [d] at jobsCap; simp at jobsCap ⊢; omega, outCap, abort⟩⟩
    · simpa [State.open, b, d] using opened
    · simpa [State.inFlight, b] using out
    · intro hc; have := (ended hc).1; rw [b] at this; cases this
    · intro hd; simp at hd
  | dispEnd a b d e =>
    refine ⟨c, ⟨le, bound, ?_, ?_, pre, gone, ?_, fut, notClosed, nodup, by simpa using poolLe, by simpa using cover, ?_, subExit, jobsCap, outCap, abort⟩⟩
    · simpa [State.open, b, d] using opened
    · simpa [State.inFlight, b] using out
    · intro hc; exact ⟨rfl, (ended hc).2⟩
    · intro hd; exact ⟨e, d⟩
  | recvFut i g a b d =>
    have hc : i = c ∧ c < s.next := by
      rw [b] at opened
      have := congrArg List.head? opened
      cases hn : s.next - c with
      | zero => simp [hn] at opened
      | succ m =>
        simp [hn, List.range'_succ] at this
        omega
    obtain ⟨rfl, hlt⟩ := hc
    have hni : i ∉ s.queued ++ s.running := by
      intro hm
      have := (poolLe i (by simpa using hm)).2.2
      rw [d] at this; cases this
    refine ⟨i + 1, ⟨hlt, bound, ?_, ?_, pre, gone, ?_, fut, notClosed, nodup, ?_, ?_, ?_, subExit, jobsCap, outCap, abort⟩⟩
    · rw [b, show s.next - i = (s.next - (i + 1)) + 1 by omega, List.range'_succ] at opened
      simp only [List.cons_append, List.cons.injEq, true_and, List.nil_append] at opened
      simpa [State.open] using opened
    · intro hc
      have o := out hc
      have hf := (fut i g d).2
      have hil : i < input.length := by omega
      rw [List.getElem?_eq_getElem hil] at hf
      simp only [Option.map_some, Option.some.injEq] at hf
      rw [b] at o
      simp only [List.append_nil] at o
      rw [List.take_succ_eq_append_getElem hil]
      simp only [State.inFlight, List.map_append, List.map_cons, List.map_nil, hf] at o ⊢
      rw [← o]; simp
    · intro hc; have := (ended hc).1; rw [b] at this; cases this
    · intro j hj
      obtain ⟨x, y, z⟩ := poolLe j (by simpa using hj)
      have : j ≠ i := by rintro rfl; exact hni hj
      exact ⟨by omega, y, z⟩
    · intro j h1 h2 h3
      exact cover j (by omega) h2 (by simpa using h3)
    · intro hd; simp at hd
  | recvFutFails i a b d => exact absurd d (notClosed i)
  | pushOut g a b d e =>
    refine ⟨c, ⟨le, bound, ?_, ?_, pre, ?_, ?_, fut, notClosed, nodup, by simpa using poolLe, by simpa using cover, ?_, subExit, jobsCap, by simp; omega, abort⟩⟩
    · simpa [State.open, b] using opened
    · simpa [State.inFlight, b] using out
    · intro hc; exact absurd hc d
    · intro hc; have := (ended hc).1; rw [b] at this; cases this
    · intro hd; simp at hd
  | handOut g a b d e =>
    have ho : s.outCh = [] := List.eq_nil_of_length_eq_zero (by omega)
    have o := out (by rw [d]; simp)
    rw [b, ho] at o
    simp only [List.nil_append] at o
    refine ⟨c, ⟨le, bound, ?_, ?_, ?_, ?_, ?_, fut, notClosed, nodup, by simpa using poolLe, by simpa using cover, ?_, subExit, jobsCap, outCap, abort⟩⟩
    · simpa [State.open, b] using opened
    · intro _; simpa [State.inFlight, ho] using o
    · dsimp only
      rw [o]
      exact (List.take_prefix c input).map job
    · intro hc; rw [d] at hc; cases hc
    · intro hc; rw [d] at hc; cases hc
    · intro hd; simp at hd
  | sendOutFails g a b d =>
    refine ⟨c, ⟨le, bound, ?_, ?_, pre, ?_, ?_, fut, notClosed, nodup, by simpa using poolLe, by simpa using cover, ?_, subExit, jobsCap, outCap, abort⟩⟩
    · simpa [State.open, b] using opened
    · intro hc; exact absurd d hc
    · exact gone
    · intro hc; rw [d] at hc; cases hc
    · intro hd; simp at hd
  | consRecv g r a b d =>
    have o := out (by rw [b]; simp)
    rw [d] at o
    refine ⟨c, ⟨le, bound, opened, ?_, ?_, ?_, ?_, fut, notClosed, nodup, by simpa using poolLe, by simpa using cover, dispExit, subExit, jobsCap, by rw [d] at outCap; simp at outCap ⊢; omega, abort⟩⟩
    · intro _; simpa [State.inFlight] using o
    · refine List.IsPrefix.trans ?_ ((List.take_prefix c input).map job)
      rw [← o]
      simp [List.map_append]
    · intro hc; rw [b] at hc; cases hc
    · intro hc; rw [b] at hc; cases hc
  | consEnd a b d e =>
    refine ⟨c, ⟨le, bound, opened, ?_, pre, ?_, ?_, fut, notClosed, nodup, by simpa using poolLe, by simpa using cover, dispExit, subExit, jobsCap, outCap, abort⟩⟩
    · intro _; exact out (by rw [b]; simp)
    · intro hc; cases hc
    · intro _; exact ⟨e, d⟩
  | consDrop a b =>
    refine ⟨c, ⟨le, bound, opened, ?_, pre, ?_, ?_, fut, notClosed, nodup, by simpa using poolLe, by simpa using cover, dispExit, subExit, jobsCap, by simp, abort⟩⟩
    · intro hc; simp at hc
    · intro _; rfl
    · intro hc; cases hc

theorem inv_reach (p : Params) (job : Frame → Outcome Frame) (input : List Frame) (s : State)
    (h : Reach p job input s) : ∃ c, Inv p job input c s := by
  induction h with
  | init => exact ⟨0, inv_init p job input⟩
  | step _ st ih => obtain ⟨c, hc⟩ := ih; exact inv_step p job input c _ _ hc st

/-- Decreases with every step. -/
def State.measure (n : Nat) (s : State) : Nat :=
  9 * (n - s.next) + 2 * s.queued.length + s.running.length + 4 * s.jobsCh.length + s.outCh.length
  + (match s.sub with | .pull => 1 | .sending _ => 6 | .exited => 0)
  + (match s.disp with | .recvJob => 1 | .recvFut _ => 4 | .sendOut _ => 3 | .exited => 0)
  + (match s.cons with | .reading => 1 | _ => 0)
  + (match s.aborted with | none => 1 | some _ => 0)

theorem measure_step (p : Params) (job : Frame → Outcome Frame) (input : List Frame) (s t : State)
    (st : Step p job input s t) : t.measure input.length < s.measure input.length := by
  cases st with
  | start i a b d =>
    have h1 := List.length_erase_of_mem b
    have h2 := List.length_pos_of_mem b
    simp only [State.measure, h1, List.length_append, List.length_singleton]
    omega
  | finish i f g a b d e r =>
    have h1 := List.length_erase_of_mem b
    have h2 := List.length_pos_of_mem b
    simp only [State.measure, h1]
    omega
  | _ => simp_all [State.measure] <;> omega

/-- A step that is not the consumer dropping the iterator. -/
def Moves (p : Params) (job : Frame → Outcome Frame) (input : List Frame) (s : State) : Prop :=
  ∃ t, Step p job input s t ∧ (t.cons = .gone → s.cons = .gone)

/-- A step of the stage's own threads (the consumer's view does not change, except for a rendezvous). -/
def MovesInside (p : Params) (job : Frame → Outcome Frame) (input : List Frame) (s : State) : Prop :=
  ∃ t, Step p job input s t ∧ t.cons = s.cons ∧ t.got = s.got

/-- Without the consumer's help, the only non-final situation in which nothing moves is a dispatcher blocked on a full
output channel. -/
theorem inside_progress (p : Params) (hw : 1 ≤ p.workers) (job : Frame → Outcome Frame) (input : List Frame) (s : State)
    (h : Reach p job input s) (ha : s.aborted = none) (hm : ¬ MovesInside p job input s) :
    (s.sub = .exited ∧ s.queued = [] ∧ s.running = [] ∧ s.disp = .exited) ∨
    (∃ g, s.disp = .sendOut g ∧ s.cons ≠ .gone ∧ s.outCh.length = p.bufferSize) := by
  obtain ⟨c, I⟩ := inv_reach p job input s h
  -- pool idle
  have hr : s.running = [] := by
    cases hr : s.running with
    | nil => rfl
    | cons i r =>
      exfalso; apply hm
      have hi : i ∈ s.running := by rw [hr]; simp
      have hb := (I.poolLe i (by simp [hi])).2.1
      have hlt : i < input.length := by have := I.bound; omega
      have hf : input[i]? = some input[i] := List.getElem?_eq_getElem hlt
      cases hj : job input[i] with
      | panic => exact ⟨_, .jobPanics s i _ ha hi hf hj, rfl, rfl⟩
      | ret g =>
        by_cases hx : s.rxAlive i
        · exact ⟨_, .finish s i _ g ha hi hf hj hx, rfl, rfl⟩
        · exact ⟨_, .finishNoReceiver s i _ g ha hi hf hj hx, rfl, rfl⟩
  have hq : s.queued = [] := by
    cases hq : s.queued with
    | nil => rfl
    | cons i r =>
      exfalso; apply hm
      exact ⟨_, .start s i ha (by rw [hq]; simp) (by rw [hr]; simp; omega), rfl, rfl⟩
  cases hd : s.disp with
  | exited =>
    left
    exact ⟨(I.dispExit hd).1, hq, hr, rfl⟩
  | sendOut g =>
    right
    refine ⟨g, rfl, ?_, ?_⟩
    · intro hg
      exact hm ⟨_, .sendOutFails s g ha hd hg, rfl, rfl⟩
    · have := I.outCap
      by_cases hlt : s.outCh.length < p.bufferSize
      · exfalso; apply hm
        by_cases hg : s.cons = .gone
        · exact ⟨_, .sendOutFails s g ha hd hg, rfl, rfl⟩
        · exact ⟨_, .pushOut s g ha hd hg hlt, rfl, rfl⟩
      · omega
  | recvFut i =>
    exfalso; apply hm
    have hop := I.opened
    have hmem : i ∈ List.range' c (s.next - c) := by
      rw [← hop]; simp [State.open, hd]
    rw [List.mem_range'_1] at hmem
    obtain ⟨g, hg⟩ := I.cover i (by omega) (by omega) (by simp [hq, hr])
    exact ⟨_, .recvFut s i g ha hd hg, rfl, rfl⟩
  | recvJob =>
    exfalso; apply hm
    cases hj : s.jobsCh with
    | cons i r => exact ⟨_, .recvJob s i r ha hd hj, rfl, rfl⟩
    | nil =>
      cases hs : s.sub with
      | exited => exact ⟨_, .dispEnd s ha hd hj hs, rfl, rfl⟩
      | pull =>
        by_cases hn : s.next = input.length
        · exact ⟨_, .endInput s ha hs hn, rfl, rfl⟩
        · exact ⟨_, .pull s ha hs (by have := I.bound; omega), rfl, rfl⟩
      | sending i =>
        by_cases hb : p.bufferSize = 0
        · exact ⟨_, .handJob s i ha hs hb hd, rfl, rfl⟩
        · exact ⟨_, .pushJob s i ha hs (by rw [hd]; simp) (by rw [hj]; simp; omega), rfl, rfl⟩

theorem progress (p : Params) (hw : 1 ≤ p.workers) (job : Frame → Outcome Frame) (input : List Frame) (s : State)
    (h : Reach p job input s) (ha : s.aborted = none) : Moves p job input s ∨ s.Finished := by
  by_cases hm : MovesInside p job input s
  · obtain ⟨t, a, b, _⟩ := hm
    exact .inl ⟨t, a, by rw [b]; exact id⟩
  · have I := inv_reach p job input s h
    obtain ⟨c, I⟩ := I
    rcases inside_progress p hw job input s h ha hm with ⟨h1, h2, h3, h4⟩ | ⟨g, h1, h2, h3⟩
    · by_cases hc : s.cons = .reading
      · left
        cases ho : s.outCh with
        | nil => exact ⟨_, .consEnd s ha hc ho h4, by simp⟩
        | cons g r => exact ⟨_, .consRecv s g r ha hc ho, by simp [hc]⟩
      · exact .inr ⟨h1, h2, h3, h4, hc⟩
    · left
      have hc : s.cons = .reading := by
        cases hc : s.cons with
        | reading => rfl
        | gone => exact absurd hc h2
        | ended => have := (I.ended hc).1; rw [h1] at this; cases this
      cases ho : s.outCh with
      | nil =>
        rw [ho] at h3
        exact ⟨_, .handOut s g ha h1 hc h3.symm, by simp [hc]⟩
      | cons g r => exact ⟨_, .consRecv s g r ha hc ho, by simp [hc]⟩

end Ccsds.RsStage
