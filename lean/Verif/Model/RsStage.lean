import Verif.Model.ReedSolomon
/-!
# The threads of `ccsds-lib/src/framing/pipeline/reed_solomon.rs` (`reed_solomon`, `do_reed_solomon`)

A transition system with one process per thread: the submitter, the pool workers, the dispatcher and the consumer of the
returned iterator. One step = one channel operation, one job start, one job end. Crossbeam bounded channels are FIFO queues
with a capacity; capacity 0 is a rendezvous. A message whose receivers are all gone is dropped, a send to it fails.

Not modelled: failure to create threads or the pool. If the input iterator panics, the submitter thread unwinds and drops its channel ends just as when the
iterator ends (step `endInput`), with the frames before the panic as input. The input is a finite list; a run over an
endless input is, at every point, a run over the list of the frames pulled so far.
-/
namespace Ccsds.RsStage

/-- pipeline/reed_solomon.rs:92-121, the submitter thread: about to call `frames.next()`; blocked in `jobs_tx.send(job_rx)`
with the receiver of job `i`; finished (its `jobs_tx` and the pool handle are dropped). -/
inductive Sub where
  | pull
  | sending (i : Nat)
  | exited
  deriving DecidableEq, Repr

/-- The one-slot channel of job `i` (pipeline/reed_solomon.rs:95): no message yet, a message, or the sender was dropped
without a message. -/
inductive Fut where
  | empty
  | full (f : Frame)
  | closed

/-- pipeline/reed_solomon.rs:124-132, the dispatcher: in `jobs_rx.recv()`, in `job.recv()` for job `i`, in
`result_tx.send(frame)`, or finished (`jobs_rx` and `result_tx` dropped). -/
inductive Disp where
  | recvJob
  | recvFut (i : Nat)
  | sendOut (f : Frame)
  | exited

/-- The user of the iterator returned at pipeline/reed_solomon.rs:172: still reading, has seen `None`, or has dropped it. -/
inductive Cons where
  | reading
  | ended
  | gone
  deriving DecidableEq, Repr

/-- Why the process died: the closure of job `i` panicked (rayon aborts when a spawned closure panics and no panic handler is
installed, and none is, pipeline/reed_solomon.rs:69-73), or its `job_tx.send(..).expect(..)` (line 111) found no receiver. -/
inductive Abort where
  | jobPanic (i : Nat)
  | noReceiver (i : Nat)
  deriving DecidableEq, Repr

/-- The state of all the threads started at pipeline/reed_solomon.rs:158-172: the submitter (:92-121), the pool, the dispatcher (:124-132), the channels (:77, :95, :162), and the caller. -/
structure State where
  /-- frames taken from the input so far = jobs spawned so far; job `i` is the job of the `i`-th frame -/
  next : Nat
  sub : Sub
  /-- jobs waiting in the pool / being run by a worker -/
  queued : List Nat
  running : List Nat
  fut : Nat → Fut
  /-- contents of the `jobs` channel -/
  jobsCh : List Nat
  disp : Disp
  /-- contents of the output channel -/
  outCh : List Frame
  cons : Cons
  /-- what the consumer has received so far -/
  got : List Frame
  aborted : Option Abort

/-- pipeline/reed_solomon.rs:158-173 at the moment `reed_solomon` returns. -/
def State.init : State :=
  ⟨0, .pull, [], [], fun _ => .empty, [], .recvJob, [], .reading, [], none⟩

/-- The receiver of job `i` still exists: it is held by the submitter, in the `jobs` channel, or held by the dispatcher. -/
def State.rxAlive (s : State) (i : Nat) : Prop :=
  s.sub = .sending i ∨ i ∈ s.jobsCh ∨ s.disp = .recvFut i

/-- `buffer_size` (pipeline/reed_solomon.rs:14) and the actual number of pool threads (rayon picks a positive number for 0). -/
structure Params where
  bufferSize : Nat
  workers : Nat

/-- One step. `job` is what the closure of pipeline/reed_solomon.rs:97-109 computes (`RS.job`). -/
inductive Step (p : Params) (job : Frame → Outcome Frame) (input : List Frame) : State → State → Prop where
  /-- :93-96 next frame, spawn its job -/
  | pull (s : State) : s.aborted = none → s.sub = .pull → s.next < input.length →
      Step p job input s { s with next := s.next + 1, sub := .sending s.next, queued := s.queued ++ [s.next] }
  /-- :93 input exhausted (or its `next` panics): the closure ends -/
  | endInput (s : State) : s.aborted = none → s.sub = .pull → s.next = input.length →
      Step p job input s { s with sub := .exited }
  /-- :116 `jobs_tx.send(job_rx)`, capacity `buffer_size * 2` (line 77) -/
  | pushJob (s : State) (i : Nat) : s.aborted = none → s.sub = .sending i → s.disp ≠ .exited →
      s.jobsCh.length < p.bufferSize * 2 →
      Step p job input s { s with sub := .pull, jobsCh := s.jobsCh ++ [i] }
  /-- :116 with capacity 0: the dispatcher must be waiting in `recv` -/
  | handJob (s : State) (i : Nat) : s.aborted = none → s.sub = .sending i → p.bufferSize = 0 → s.disp = .recvJob →
      Step p job input s { s with sub := .pull, disp := .recvFut i }
  /-- :116-119 the receiver is gone: `break` -/
  | sendFails (s : State) (i : Nat) : s.aborted = none → s.sub = .sending i → s.disp = .exited →
      Step p job input s { s with sub := .exited }
  /-- a free worker takes any waiting job -/
  | start (s : State) (i : Nat) : s.aborted = none → i ∈ s.queued → s.running.length < p.workers →
      Step p job input s { s with queued := s.queued.erase i, running := s.running ++ [i] }
  /-- :96-112 the job ends and sends its result -/
  | finish (s : State) (i : Nat) (f g : Frame) : s.aborted = none → i ∈ s.running → input[i]? = some f →
      job f = .ret g → s.rxAlive i →
      Step p job input s { s with running := s.running.erase i, fut := fun j => if j = i then .full g else s.fut j }
  /-- :111 `expect("failed to send frame")` -/
  | finishNoReceiver (s : State) (i : Nat) (f g : Frame) : s.aborted = none → i ∈ s.running → input[i]? = some f →
      job f = .ret g → ¬ s.rxAlive i →
      Step p job input s { s with aborted := some (.noReceiver i) }
  /-- the job panics (line 100, or inside `perform`) -/
  | jobPanics (s : State) (i : Nat) (f : Frame) : s.aborted = none → i ∈ s.running → input[i]? = some f →
      job f = .panic →
      Step p job input s { s with aborted := some (.jobPanic i) }
  /-- :125 `jobs_rx.recv()` -/
  | recvJob (s : State) (i : Nat) (r : List Nat) : s.aborted = none → s.disp = .recvJob → s.jobsCh = i :: r →
      Step p job input s { s with jobsCh := r, disp := .recvFut i }
  /-- :125 the channel is empty and its sender gone: the loop ends -/
  | dispEnd (s : State) : s.aborted = none → s.disp = .recvJob → s.jobsCh = [] → s.sub = .exited →
      Step p job input s { s with disp := .exited }
  /-- :126 `job.recv()` delivers -/
  | recvFut (s : State) (i : Nat) (g : Frame) : s.aborted = none → s.disp = .recvFut i → s.fut i = .full g →
      Step p job input s { s with disp := .sendOut g }
  /-- :126-131 `job.recv()` fails: `break`; the `jobs` channel is dropped with its contents -/
  | recvFutFails (s : State) (i : Nat) : s.aborted = none → s.disp = .recvFut i → s.fut i = .closed →
      Step p job input s { s with disp := .exited, jobsCh := [] }
  /-- :127 `result_tx.send(frame)`, capacity `buffer_size` (line 162) -/
  | pushOut (s : State) (g : Frame) : s.aborted = none → s.disp = .sendOut g → s.cons ≠ .gone →
      s.outCh.length < p.bufferSize →
      Step p job input s { s with disp := .recvJob, outCh := s.outCh ++ [g] }
  /-- :127 with capacity 0: the consumer must be in `recv` -/
  | handOut (s : State) (g : Frame) : s.aborted = none → s.disp = .sendOut g → s.cons = .reading → p.bufferSize = 0 →
      Step p job input s { s with disp := .recvJob, got := s.got ++ [g] }
  /-- :127 the consumer is gone: the error is ignored -/
  | sendOutFails (s : State) (g : Frame) : s.aborted = none → s.disp = .sendOut g → s.cons = .gone →
      Step p job input s { s with disp := .recvJob }
  /-- :172 the consumer's `next()` delivers -/
  | consRecv (s : State) (g : Frame) (r : List Frame) : s.aborted = none → s.cons = .reading → s.outCh = g :: r →
      Step p job input s { s with outCh := r, got := s.got ++ [g] }
  /-- the consumer's `next()` returns `None` -/
  | consEnd (s : State) : s.aborted = none → s.cons = .reading → s.outCh = [] → s.disp = .exited →
      Step p job input s { s with cons := .ended }
  /-- the consumer drops the iterator -/
  | consDrop (s : State) : s.aborted = none → s.cons = .reading →
      Step p job input s { s with cons := .gone, outCh := [] }

/-- States reachable by some schedule. -/
inductive Reach (p : Params) (job : Frame → Outcome Frame) (input : List Frame) : State → Prop where
  | init : Reach p job input State.init
  | step {s t : State} : Reach p job input s → Step p job input s t → Reach p job input t

/-- Every thread has finished and no job is left (the process did not abort). -/
def State.Finished (s : State) : Prop :=
  s.sub = .exited ∧ s.queued = [] ∧ s.running = [] ∧ s.disp = .exited ∧ s.cons ≠ .reading

end Ccsds.RsStage
