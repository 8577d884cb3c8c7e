import Verif.Model.Writer
/-!
# Commands that are killed: the files at any moment of a run

A process can be killed at any moment, also one that would never have come to an end. For `ccsds filter`, `merge` and `framing` (`ccsds-cmd/src/main.rs:339-482`) these are the
states of the files at some moment of a run: before the output is created, after that, and while bytes are added to it. Bytes arrive in a file in the order in which they are
passed to `write`; a call that is under way may have added any number of its bytes. Writing does not go through a buffer of the process (main.rs:360, 400, frame.rs:87-90: `File`).
Inputs end once (see `Model.LazyGroups` for `filter` with time bounds and `merge` over inputs that go on after their end).
Losing bytes that the operating system had accepted (a crash of the machine) is not modelled.
-/
namespace Ccsds

namespace Filter

/-- filter.rs:96: what the loop of `filter` can have got from its iterator at some moment. With time bounds, packets are read until a group is complete: of the groups of the packets
read so far, the last may still go on (`beforePanic`). -/
inductive ItemsSoFar (b : Build) (r : Reader) (timed : Bool) : List Item → Prop where
  | untimed {ps : List Packet} {t : PacketDecoder} : timed = false → Takes (mapWhileOk PacketDecoder.next) (PacketDecoder.new r) ps t →
      ItemsSoFar b r timed (ps.map (fun p => ⟨p.data, p.header.apid, minEpoch⟩))
  | timed {pitems : List (Except Error Packet)} {t : PacketDecoder} {gitems : List (Except Error PacketGroup)} {s : PacketGroupIter} : timed = true →
      Takes PacketDecoder.next (PacketDecoder.new r) pitems t → Collects PacketGroupIter.next (PacketGroupIter.new (oks pitems)) gitems (some s) →
      ItemsSoFar b r timed (timedAll b (beforePanic (oks gitems))).1
  | all {items : List Item} {ends : Bool} : timed = true → PacketsWithTimes b r items ends → ItemsSoFar b r timed items

end Filter

namespace Pipeline

/-- The beginning of a run of the frame iterator (`Yields`). -/
inductive SoFar (b : Build) (derand : Bool) : State → List Frame → Prop where
  | nil {s : State} : SoFar b derand s []
  | frame {s : State} {y : Sync.Iter} {blk : Block} {t : FrameDecoder.State} {f : Frame} {fs : List Frame} :
      Pulls s.sync (some blk) y → FrameDecoder.next b ⟨s.counters, [prep derand blk]⟩ = .ret (some f, t) →
      SoFar b derand ⟨y, t.counters⟩ fs → SoFar b derand s (f :: fs)

end Pipeline

namespace Framing

/-- frame.rs:64-86 the frames the loop of `frame_aos` can have got at some moment. With Reed–Solomon: the results of a state that the stage reaches with the frames decoded so far. -/
inductive FramesSoFar (b : Build) (k : Codec) (a : Args) (workers : Nat) (r : Reader) : List Frame → Prop where
  | plain {frames : List Frame} : a.reedSolomon = none → Pipeline.SoFar b (config a workers).derandomize (Pipeline.start (config a workers) r) frames →
      FramesSoFar b k a workers r frames
  | rs {il : U8} {o : RS.Opts} {p : RsStage.Params} {frames : List Frame} {st : RsStage.State} : a.reedSolomon = some il → (config a workers).rs = some (o, p) →
      Pipeline.SoFar b (config a workers).derandomize (Pipeline.start (config a workers) r) frames → RsStage.Reach p (RS.job k o) frames st →
      FramesSoFar b k a workers r st.got

/-- The bytes written when the loop ended. -/
def LoopEnd.bytes : LoopEnd → List U8
  | .done _ w => w
  | .failed w => w
  | .panicked w => w

end Framing

namespace Cmd
variable {Path : Type} [DecidableEq Path]

/-- main.rs:381-412 the files at some moment of a run of `ccsds filter` -/
inductive FilterAt (b : Build) (τ : Epoch → Int) (ud : Char → Bool) (sched : Path → List U8 → Reader) (a : FilterArgs Path) (fs : FS Path) (s : List WEv) : FS Path → Prop where
  | before : FilterAt b τ ud sched a fs s fs
  | created : (a.clobber = true ∨ fs a.output = none) → fs a.input ≠ none → FilterAt b τ ud sched a fs s (fs.put a.output [])
  | writing {content : List U8} {i e : List Nat} {items : List Filter.Item} {part : List U8} : (a.clobber = true ∨ fs a.output = none) →
      fs a.input ≠ none → (fs.put a.output []) a.input = some content → Ranges.parse ud a.incl = some i → Ranges.parse ud a.excl = some e →
      ¬ (Ranges.toU16 i = [] ∧ Ranges.toU16 e = [] ∧ a.before = none ∧ a.after = none) →
      Filter.ItemsSoFar b (sched a.input content) (a.before.isSome || a.after.isSome) items →
      part <+: (Filter.loopW τ (Ranges.toU16 i) (Ranges.toU16 e) a.before a.after s items).2 → FilterAt b τ ud sched a fs s (fs.put a.output part)

/-- main.rs:339-376 the files at some moment of a run of `ccsds merge`. Nothing is written before the index is complete (merge.rs:161-168). -/
inductive MergeAt (b : Build) (τ : Epoch → Int) (micros : Epoch → Nat) (sched : Path → List U8 → Reader) (a : MergeArgs Path) (fs : FS Path) (s : List WEv) : FS Path → Prop where
  | before : MergeAt b τ micros sched a fs s fs
  | created : (a.clobber = true ∨ fs a.output = none) → orderOf a ≠ none → MergeAt b τ micros sched a fs s (fs.put a.output [])
  | writing {ord : List U16} {res : Merger.MResult} {part : List U8} : (a.clobber = true ∨ fs a.output = none) → orderOf a = some ord → a.inputs ≠ [] →
      Merger.MergesW b τ (mergerOf micros a ord) ((fs.put a.output []).files sched) s res → part <+: (mergeEnd res).2.flatten →
      MergeAt b τ micros sched a fs s (fs.put a.output part)

/-- main.rs:415-482 the files at some moment of a run of `ccsds framing`. The summary file is written (`fs::write`, 478-481: created, then filled) after `frame_aos` has returned. -/
inductive FramingAt (b : Build) (k : Codec) (ud : Char → Bool) (parseCfg : List U8 → Option FramingConfig) (render : Framing.Summary → List U8) (workers : Nat)
    (env : Inputs Path) (a : FramingArgs Path) (fs : FS Path) (s : List WEv) : FS Path → Prop where
  | before : FramingAt b k ud parseCfg render workers env a fs s fs
  | writing {cfg : Option FramingConfig} {i e : List Nat} {r : Reader} {frames : List Frame} {part : List U8} : Ranges.parse ud a.incl = some i →
      Ranges.parse ud a.excl = some e → configOf parseCfg fs a = some cfg → (framingArgs a cfg i e).length ≠ 0 →
      ((framingArgs a cfg i e).reedSolomon = none ∨ a.output ≠ some a.input) → env.reader fs (fs.create a.output) a.input = some r →
      Framing.FramesSoFar b k (framingArgs a cfg i e) workers r frames →
      part <+: (Framing.loopW (framingArgs a cfg i e) s ⟨.default, [], []⟩ [] frames).bytes →
      FramingAt b k ud parseCfg render workers env a fs s (fs.fill a.output part)
  | summary {cfg : Option FramingConfig} {i e : List Nat} {r : Reader} {sm : Framing.Summary} {w part : List U8} : Ranges.parse ud a.incl = some i →
      Ranges.parse ud a.excl = some e → configOf parseCfg fs a = some cfg → (framingArgs a cfg i e).length ≠ 0 →
      ((framingArgs a cfg i e).reedSolomon = none ∨ a.output ≠ some a.input) → env.reader fs (fs.create a.output) a.input = some r →
      Framing.RunsW b k (framingArgs a cfg i e) workers r s (some sm) false w → part <+: render sm →
      FramingAt b k ud parseCfg render workers env a fs s ((fs.fill a.output w).fill a.summary part)

end Cmd
end Ccsds
