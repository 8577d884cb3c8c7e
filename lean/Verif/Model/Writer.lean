import Verif.Model.Commands
/-!
# Commands whose writes can fail; `ccsds framing` with its files

The environment: `std::io::Write` as a script of results of the system call `write`, and `write_all` of `std`. Then the loops of filter.rs, merge.rs and frame.rs
again, with the `?` after their `write_all`, and `ccsds framing` (main.rs:415-482) with its effect on files.
-/
namespace Ccsds

/-- One result of a `write` system call. `accept n` takes at most `n` bytes; `accept 0` is `Ok(0)`. -/
inductive WEv where
  | accept (n : Nat)
  | err (k : IoKind)
  deriving DecidableEq

/-- `Write::write_all` of `std`: whether it succeeds, the bytes that were written, and the results that remain. After the end of the script everything
is accepted. -/
def writeAll : List WEv → List U8 → Bool × List U8 × List WEv
  | s, [] => (true, [], s)
  | [], bs => (true, bs, [])
  | .accept n :: s, bs =>
    if n = 0 then (false, [], s)
    else if bs.length ≤ n then (true, bs, s)
    else
      let r := writeAll s (bs.drop n)
      (r.1, bs.take n ++ r.2.1, r.2.2)
  | .err k :: s, bs => if k = .interrupted then writeAll s bs else (false, [], s)

namespace Filter

/-- filter.rs:96-140 the loop with the `?` of line 136: whether it got to its end, and the bytes written. -/
def loopW (τ : Epoch → Int) (incl excl : List U16) (before after : Option Epoch) : List WEv → List Item → Bool × List U8
  | _, [] => (true, [])
  | s, i :: is =>
    if keep τ incl excl before after i then
      match writeAll s i.data with
      | (false, w, _) => (false, w)
      | (true, w, s') =>
        let r := loopW τ incl excl before after s' is
        (r.1, w ++ r.2)
    else loopW τ incl excl before after s is

end Filter

namespace Merger
variable {Path : Type} [DecidableEq Path]

/-- merge.rs:168-181 the output loop with the `?` of line 178 -/
def emitW (files : Path → Option MFile) : List WEv → List (Ptr Path) → List (List U8) → MResult
  | _, [], out => .ok out
  | s, p :: ps, out =>
    match files p.path with
    | none => .panic
    | some f =>
      let buf := (f.content.drop p.offset).take p.size
      if buf.length < p.size then .error out
      else
        match writeAll s buf with
        | (false, w, _) => .error (out ++ [w])
        | (true, w, s') => emitW files s' ps (out ++ [w])

/-- merge.rs:88-182 `merge` with a writer that can fail (`Merges` is the same with one that cannot) -/
inductive MergesW (b : Build) (τ : Epoch → Int) (m : Merger Path) (files : Path → Option MFile) (s : List WEv) : MResult → Prop where
  | openFails {p : Path} : p ∈ m.paths → files p = none → MergesW b τ m files s (.error [])
  | panicked {visit : List Path} : (∀ p ∈ m.paths, files p ≠ none) → visit.Perm (distinct m.paths) → Index b τ m files visit [] none →
      MergesW b τ m files s .panic
  | finished {visit : List Path} {idx idx' : List (Ptr Path)} : (∀ p ∈ m.paths, files p ≠ none) → visit.Perm (distinct m.paths) →
      Index b τ m files visit [] (some idx) → idx'.Perm idx →
      MergesW b τ m files s (emitW files s (idx'.mergeSort (Ptr.le τ)) [])

end Merger

namespace Framing

/-- How the loop of frame.rs:94-147 ended: at its end, by `?` at line 145, or by a panic; with the bytes written. -/
inductive LoopEnd where
  | done (st : State) (written : List U8)
  | failed (written : List U8)
  | panicked (written : List U8)

/-- frame.rs:94-147 the loop with the `?` of line 145. `st.written` is not used here. -/
def loopW (a : Args) : List WEv → State → List U8 → List Frame → LoopEnd
  | _, st, w, [] => .done st w
  | s, st, w, f :: fs =>
    if !selected a f then loopW a s st w fs
    else
      let channel := (st.vcids.get? f.header.vcid).getD ⟨0, .default⟩
      let channel : Info := ⟨f.header.vcid, channel.tally.add f⟩
      let st := { st with summary := st.summary.add f, vcids := st.vcids.insert f.header.vcid channel }
      if !writable f then loopW a s st w fs
      else if !a.output then loopW a s st w fs
      else if f.data.length < a.length then .panicked w
      else
        match writeAll s (f.data.take a.length) with
        | (false, x, _) => .failed (w ++ x)
        | (true, x, s') => loopW a s' st (w ++ x) fs

/-- How the frame iterator of frame.rs:86 ends: by `None`, by a panic (or abort of the process), or it has not ended yet. -/
inductive SourceEnd where
  | ended | died | going
  deriving DecidableEq

/-- frame.rs:64-86 the frames a loop over the pipeline has got. -/
inductive Source (b : Build) (k : Codec) (a : Args) (workers : Nat) (r : Reader) : List Frame → SourceEnd → Prop where
  | plain {frames : List Frame} {ended : Bool} : a.reedSolomon = none → Pipeline.Outputs b (config a workers) r frames ended →
      Source b k a workers r frames (if ended then .ended else .died)
  | rs {il : U8} {st : RsStage.State} : a.reedSolomon = some il → Pipeline.Runs b k (config a workers) r st →
      Source b k a workers r st.got (if st.aborted ≠ none then .died else if st.cons = .ended then .ended else .going)

/-- frame.rs:86-154 `frame_aos` from the creation of the output on, with an output that can fail: the summary, if it returns one; whether it panicked; the bytes written. -/
inductive RunsW (b : Build) (k : Codec) (a : Args) (workers : Nat) (r : Reader) (s : List WEv) : Option Summary → Bool → List U8 → Prop where
  | done {frames : List Frame} {st : State} {w : List U8} {infos : List Info} : Source b k a workers r frames .ended →
      loopW a s ⟨.default, [], []⟩ [] frames = .done st w → infos.Perm (st.vcids.map (·.2)) →
      RunsW b k a workers r s (some ⟨st.summary, infos.mergeSort (fun x y => x.vcid ≤ y.vcid)⟩) false w
  | failed {frames : List Frame} {e : SourceEnd} {w : List U8} : Source b k a workers r frames e →
      loopW a s ⟨.default, [], []⟩ [] frames = .failed w → RunsW b k a workers r s none false w
  | panicked {frames : List Frame} {e : SourceEnd} {w : List U8} : Source b k a workers r frames e →
      loopW a s ⟨.default, [], []⟩ [] frames = .panicked w → RunsW b k a workers r s none true w
  | died {frames : List Frame} {st : State} {w : List U8} : Source b k a workers r frames .died →
      loopW a s ⟨.default, [], []⟩ [] frames = .done st w → RunsW b k a workers r s none true w

end Framing

namespace Cmd
variable {Path : Type} [DecidableEq Path]

/-- main.rs:381-412 `ccsds filter` with an output `s` that can fail. (Reading that never ends is left out also here, even where a failed write would end it.) -/
inductive FilterRunW (b : Build) (τ : Epoch → Int) (ud : Char → Bool) (sched : Path → List U8 → Reader) (a : FilterArgs Path) (fs : FS Path) (s : List WEv) :
    Status → FS Path → Prop where
  | exists_ : a.clobber = false → fs a.output ≠ none → FilterRunW b τ ud sched a fs s .error fs
  | noInput : (a.clobber = true ∨ fs a.output = none) → fs a.input = none → FilterRunW b τ ud sched a fs s .error fs
  | createFails : (a.clobber = true ∨ fs a.output = none) → fs a.input ≠ none → FilterRunW b τ ud sched a fs s .error fs
  | badArgs : (a.clobber = true ∨ fs a.output = none) → fs a.input ≠ none →
      (Ranges.parse ud a.incl = none ∨ Ranges.parse ud a.excl = none) → FilterRunW b τ ud sched a fs s .error (fs.put a.output [])
  | noFilters {i e : List Nat} : (a.clobber = true ∨ fs a.output = none) → fs a.input ≠ none → Ranges.parse ud a.incl = some i →
      Ranges.parse ud a.excl = some e → Ranges.toU16 i = [] → Ranges.toU16 e = [] → a.before = none → a.after = none →
      FilterRunW b τ ud sched a fs s .error (fs.put a.output [])
  | ran {content : List U8} {i e : List Nat} {items : List Filter.Item} {ends ok : Bool} {w : List U8} : (a.clobber = true ∨ fs a.output = none) →
      fs a.input ≠ none → (fs.put a.output []) a.input = some content → Ranges.parse ud a.incl = some i → Ranges.parse ud a.excl = some e →
      ¬ (Ranges.toU16 i = [] ∧ Ranges.toU16 e = [] ∧ a.before = none ∧ a.after = none) →
      (if a.before.isSome || a.after.isSome then Filter.PacketsWithTimes b (sched a.input content) items ends
        else Filter.PacketsUntimed (sched a.input content) items ends) →
      Filter.loopW τ (Ranges.toU16 i) (Ranges.toU16 e) a.before a.after s items = (ok, w) →
      FilterRunW b τ ud sched a fs s (if !ok then .error else if ends then .ok else .panic) (fs.put a.output w)

/-- main.rs:339-376 `ccsds merge` with an output `s` that can fail -/
inductive MergeRunW (b : Build) (τ : Epoch → Int) (micros : Epoch → Nat) (sched : Path → List U8 → Reader) (a : MergeArgs Path) (fs : FS Path) (s : List WEv) :
    Status → FS Path → Prop where
  | exists_ : a.clobber = false → fs a.output ≠ none → MergeRunW b τ micros sched a fs s .error fs
  | badName : (a.clobber = true ∨ fs a.output = none) → orderOf a = none → MergeRunW b τ micros sched a fs s .error fs
  | createFails : (a.clobber = true ∨ fs a.output = none) → orderOf a ≠ none → MergeRunW b τ micros sched a fs s .error fs
  | noInputs : (a.clobber = true ∨ fs a.output = none) → orderOf a ≠ none → a.inputs = [] → MergeRunW b τ micros sched a fs s .error (fs.put a.output [])
  | ran {ord : List U16} {res : Merger.MResult} : (a.clobber = true ∨ fs a.output = none) → orderOf a = some ord → a.inputs ≠ [] →
      Merger.MergesW b τ (mergerOf micros a ord) ((fs.put a.output []).files sched) s res →
      MergeRunW b τ micros sched a fs s (mergeEnd res).1 (fs.put a.output (mergeEnd res).2.flatten)

/-- main.rs:415-432 the arguments of `framing`. `base` holds those that are passed on unchanged; its `incl`, `excl`, `output` are not used. -/
structure FramingArgs (Path : Type) where
  base : Framing.Args
  config : Option Path
  incl : List (List Char)
  excl : List (List Char)
  input : Path
  output : Option Path
  summary : Option Path

/-- Where `framing` can read from: main.rs:46-56 `InputReader::from_str`. `dash` is the path "-"; `net` are the hosts that accept a connection. -/
structure Inputs (Path : Type) where
  dash : Path
  stdin : Reader
  net : Path → Option Reader
  sched : Path → List U8 → Reader

/-- main.rs:46-56: the reader; `fs` are the files when `from_str` looks for the input, `now` when it is read. -/
def Inputs.reader (env : Inputs Path) (fs now : FS Path) (p : Path) : Option Reader :=
  if p = env.dash then some env.stdin
  else if fs p ≠ none then (now p).map (env.sched p)
  else env.net p

/-- frame.rs:87-90: the output is created -/
def FS.create (fs : FS Path) (o : Option Path) : FS Path := match o with | some p => fs.put p [] | none => fs

/-- The output has the content `w`. -/
def FS.fill (fs : FS Path) (o : Option Path) (w : List U8) : FS Path := match o with | some p => fs.put p w | none => fs

/-- The arguments of `frame_aos`: main.rs:433-456, 462-476 -/
def framingArgs (a : FramingArgs Path) (cfg : Option FramingConfig) (i e : List Nat) : Framing.Args :=
  { (cfg.map (withConfig a.base)).getD a.base with incl := Ranges.toU16 i, excl := Ranges.toU16 e, output := a.output.isSome }

/-- main.rs:449 with config.rs:26-30: the configuration, if one is given. `parseCfg` is serde. -/
def configOf (parseCfg : List U8 → Option FramingConfig) (fs : FS Path) (a : FramingArgs Path) : Option (Option FramingConfig) :=
  match a.config with
  | none => some none
  | some p => ((fs p).bind parseCfg).map some

/-- main.rs:415-482 `ccsds framing`: its possible results. `render` is the JSON of a summary (478). Not covered: Reed–Solomon with the input file as output (a race between
reading and truncating it). What goes to the terminal is left out; writing it may fail. -/
inductive FramingCmd (b : Build) (k : Codec) (ud : Char → Bool) (parseCfg : List U8 → Option FramingConfig) (render : Framing.Summary → List U8) (workers : Nat)
    (env : Inputs Path) (a : FramingArgs Path) (fs : FS Path) (s : List WEv) : Status → FS Path → Prop where
  | badArgs : (Ranges.parse ud a.incl = none ∨ Ranges.parse ud a.excl = none) → FramingCmd b k ud parseCfg render workers env a fs s .error fs
  | noInput : Ranges.parse ud a.incl ≠ none → Ranges.parse ud a.excl ≠ none → env.reader fs fs a.input = none →
      FramingCmd b k ud parseCfg render workers env a fs s .error fs
  | badConfig : Ranges.parse ud a.incl ≠ none → Ranges.parse ud a.excl ≠ none → env.reader fs fs a.input ≠ none → configOf parseCfg fs a = none →
      FramingCmd b k ud parseCfg render workers env a fs s .error fs
  | zeroLength {cfg : Option FramingConfig} {i e : List Nat} : Ranges.parse ud a.incl = some i → Ranges.parse ud a.excl = some e →
      env.reader fs fs a.input ≠ none → configOf parseCfg fs a = some cfg → (framingArgs a cfg i e).length = 0 →
      FramingCmd b k ud parseCfg render workers env a fs s .error fs
  | createFails {cfg : Option FramingConfig} {i e : List Nat} : Ranges.parse ud a.incl = some i → Ranges.parse ud a.excl = some e →
      env.reader fs fs a.input ≠ none → configOf parseCfg fs a = some cfg → (framingArgs a cfg i e).length ≠ 0 → a.output ≠ none →
      FramingCmd b k ud parseCfg render workers env a fs s .error fs
  | notFinished {cfg : Option FramingConfig} {i e : List Nat} {r : Reader} {panicked : Bool} {w : List U8} : Ranges.parse ud a.incl = some i →
      Ranges.parse ud a.excl = some e → configOf parseCfg fs a = some cfg → (framingArgs a cfg i e).length ≠ 0 →
      ((framingArgs a cfg i e).reedSolomon = none ∨ a.output ≠ some a.input) → env.reader fs (fs.create a.output) a.input = some r →
      Framing.RunsW b k (framingArgs a cfg i e) workers r s none panicked w →
      FramingCmd b k ud parseCfg render workers env a fs s (if panicked then .panic else .error) (fs.fill a.output w)
  | finished {cfg : Option FramingConfig} {i e : List Nat} {r : Reader} {sm : Framing.Summary} {w part : List U8} {ok created printed : Bool} :
      Ranges.parse ud a.incl = some i →
      Ranges.parse ud a.excl = some e → configOf parseCfg fs a = some cfg → (framingArgs a cfg i e).length ≠ 0 →
      ((framingArgs a cfg i e).reedSolomon = none ∨ a.output ≠ some a.input) → env.reader fs (fs.create a.output) a.input = some r →
      Framing.RunsW b k (framingArgs a cfg i e) workers r s (some sm) false w →
      (a.summary ≠ none → created = true → part <+: render sm ∧ (ok = true → part = render sm)) → (a.summary = none → ok = true) → (ok = true → created = true) →
      FramingCmd b k ud parseCfg render workers env a fs s (if ok && printed then .ok else .error)
        (if created then (fs.fill a.output w).fill a.summary part else fs.fill a.output w)

end Cmd
end Ccsds
