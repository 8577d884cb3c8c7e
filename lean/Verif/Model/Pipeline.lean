import Verif.Model.Sync
import Verif.Model.Pn
import Verif.Model.RsStage
/-!
# `ccsds-lib/src/framing/pipeline/builder.rs` and `derandomize` of `ccsds-lib/src/framing/pipeline/mod.rs`
-/
namespace Ccsds.Pipeline

/-- builder.rs:8-13 `Pipeline`. The thread and buffer numbers of `RsOpts` are `threads`. -/
structure Config where
  derandomize : Bool
  rs : Option (RS.Opts × RsStage.Params)
  blockLength : Nat

/-- builder.rs:20-26 `new` -/
def Config.new (caduLength : Nat) : Config := ⟨true, none, caduLength⟩
/-- builder.rs:28-31 -/
def Config.withoutDerandomization (c : Config) : Config := { c with derandomize := false }
/-- builder.rs:33-36 -/
def Config.withRs (c : Config) (o : RS.Opts) (p : RsStage.Params) : Config := { c with rs := some (o, p) }

/-- One pull from `synchronize(..).filter_map(Result::ok)` (builder.rs:39-40): `Err` items are skipped. A relation, because on a
reader that fails for ever the pull never returns. -/
inductive Pulls : Sync.Iter → Option Block → Sync.Iter → Prop where
  | done {s s' : Sync.Iter} : Sync.next s = .ret (none, s') → Pulls s none s'
  | ok {s s' : Sync.Iter} {b : Block} : Sync.next s = .ret (some (.ok b), s') → Pulls s (some b) s'
  | skip {s s1 s' : Sync.Iter} {e : Error} {o : Option Block} : Sync.next s = .ret (some (.error e), s1) → Pulls s1 o s' → Pulls s o s'

/-- builder.rs:42-44, pipeline/mod.rs:16-26 `derandomize`, on one block. -/
def prep (derand : Bool) (b : Block) : Block := if derand then { b with data := Pn.derandomize b.data } else b

/-- The lazy iterator chain up to `frame_decoder` (builder.rs:38-47). -/
structure State where
  sync : Sync.Iter
  counters : HMap U16 U32

/-- builder.rs:38-47: `SyncOpts::new` keeps the default marker. -/
def start (c : Config) (r : Reader) : State := ⟨Sync.iter r Sync.ASM c.blockLength, []⟩

/-- What a `for` loop over the frame iterator of builder.rs:46-47 sees: the frames, then the end (`some`) or a panic (`none`).
`CaduDecoderIter::next` is `FrameDecoder.next` on the one block pulled. -/
inductive Yields (b : Build) (derand : Bool) : State → List Frame → Option State → Prop where
  | done {s : State} {y : Sync.Iter} : Pulls s.sync none y → Yields b derand s [] (some { s with sync := y })
  | stop {s : State} {y : Sync.Iter} {blk : Block} {t : FrameDecoder.State} : Pulls s.sync (some blk) y →
      FrameDecoder.next b ⟨s.counters, [prep derand blk]⟩ = .ret (none, t) → Yields b derand s [] (some ⟨y, t.counters⟩)
  | panicked {s : State} {y : Sync.Iter} {blk : Block} : Pulls s.sync (some blk) y →
      FrameDecoder.next b ⟨s.counters, [prep derand blk]⟩ = .panic → Yields b derand s [] none
  | frame {s : State} {y : Sync.Iter} {blk : Block} {t : FrameDecoder.State} {f : Frame} {fs : List Frame} {e : Option State} :
      Pulls s.sync (some blk) y → FrameDecoder.next b ⟨s.counters, [prep derand blk]⟩ = .ret (some f, t) →
      Yields b derand ⟨y, t.counters⟩ fs e → Yields b derand s (f :: fs) e

/-- A number of calls of `next` of that iterator: the frames they return, and the state after them. -/
inductive Hands (b : Build) (derand : Bool) : State → List Frame → State → Prop where
  | nil {s : State} : Hands b derand s [] s
  | frame {s s' : State} {y : Sync.Iter} {blk : Block} {t : FrameDecoder.State} {f : Frame} {fs : List Frame} :
      Pulls s.sync (some blk) y → FrameDecoder.next b ⟨s.counters, [prep derand blk]⟩ = .ret (some f, t) →
      Hands b derand ⟨y, t.counters⟩ fs s' → Hands b derand s (f :: fs) s'

/-- builder.rs:38-55 `start`, without Reed-Solomon: a loop over the returned iterator sees `frames`. -/
def Outputs (b : Build) (c : Config) (r : Reader) (frames : List Frame) (ended : Bool) : Prop :=
  ∃ e, Yields b c.derandomize (start c r) frames e ∧ (e.isSome = ended)

/-- builder.rs:49-52 with Reed-Solomon: `reed_solomon` takes over the frame iterator; `s` is a state the stage can reach with the frames
of that iterator (which is pulled by the submission thread only, so that what it yields does not depend on the schedule). A panic of the
frame iterator (`ended = false`) unwinds the submission thread, which drops the same channel ends as when the iterator ends. -/
def Runs (b : Build) (k : Codec) (c : Config) (r : Reader) (s : RsStage.State) : Prop :=
  ∃ o p frames ended, c.rs = some (o, p) ∧ Outputs b c r frames ended ∧ RsStage.Reach p (RS.job k o) frames s

end Ccsds.Pipeline
