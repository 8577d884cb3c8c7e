import Verif.Model.NumberRanges
import Verif.Model.Framing
/-!
# `ccsds-cmd/src/main.rs` (`main`) and `ccsds-cmd/src/merge.rs`: the commands with their effect on files

The file system is a map from paths to contents; two different paths are different files (no links). `sched p c` is how reading file `p` with
content `c` proceeds (chunks, interruptions). Argument parsing (clap), messages and exit codes are left out. Writing to the created output does not
fail. The output is a `File` without buffer, so what was passed to `write_all` before a panic is in the file.
-/
namespace Ccsds.Cmd

/-- The regular files. -/
abbrev FS (Path : Type) := Path → Option (List U8)

/-- `File::create` followed by `write_all` of `bs`: replaces the content. -/
def FS.put {Path : Type} [DecidableEq Path] (fs : FS Path) (p : Path) (bs : List U8) : FS Path := fun q => if q = p then some bs else fs q

/-- How the command ended. -/
inductive Status where
  | ok | error | panic
  deriving DecidableEq

/-- main.rs:381-389 the arguments of `filter` -/
structure FilterArgs (Path : Type) where
  input : Path
  output : Path
  clobber : Bool
  incl : List (List Char)
  excl : List (List Char)
  before : Option Epoch
  after : Option Epoch

/-- The status of the process and what it wrote, from the result of `filter`. -/
def filterEnd : Filter.FResult → Status × List (List U8)
  | .noFilters => (.error, [])
  | .ok w => (.ok, w)
  | .panic w => (.panic, w)

variable {Path : Type} [DecidableEq Path]

/-- main.rs:381-412 `ccsds filter`: its possible results. The output is created (394-395) after the input was opened (393) and before the arguments are parsed
(397-404) and the input is read. -/
inductive FilterRun (b : Build) (τ : Epoch → Int) (ud : Char → Bool) (sched : Path → List U8 → Reader) (a : FilterArgs Path) (fs : FS Path) :
    Status → FS Path → Prop where
  | exists_ : a.clobber = false → fs a.output ≠ none → FilterRun b τ ud sched a fs .error fs
  | noInput : (a.clobber = true ∨ fs a.output = none) → fs a.input = none → FilterRun b τ ud sched a fs .error fs
  | createFails : (a.clobber = true ∨ fs a.output = none) → fs a.input ≠ none → FilterRun b τ ud sched a fs .error fs
  | badArgs : (a.clobber = true ∨ fs a.output = none) → fs a.input ≠ none →
      (Ranges.parse ud a.incl = none ∨ Ranges.parse ud a.excl = none) → FilterRun b τ ud sched a fs .error (fs.put a.output [])
  | ran {content : List U8} {i e : List Nat} {res : Filter.FResult} : (a.clobber = true ∨ fs a.output = none) → fs a.input ≠ none →
      (fs.put a.output []) a.input = some content → Ranges.parse ud a.incl = some i → Ranges.parse ud a.excl = some e →
      Filter.Runs b τ (sched a.input content) (Ranges.toU16 i) (Ranges.toU16 e) a.before a.after res →
      FilterRun b τ ud sched a fs (filterEnd res).1 (fs.put a.output (filterEnd res).2.flatten)

/-- main.rs:339-348 the arguments of `merge` -/
structure MergeArgs (Path : Type) where
  inputs : List Path
  output : Path
  clobber : Bool
  order : Option (List U16)
  orderName : Option (List Char)
  from? : Option Epoch
  to? : Option Epoch
  apids : List U16

/-- ccsds-cmd merge.rs:7-13 `apid_order` -/
def apidOrder (name : List Char) : Option (List U16) := if name = "jpss-viirs".toList then some [826#16, 821#16] else none

/-- main.rs:353-359 the order to use, `none` for the error -/
def orderOf (a : MergeArgs Path) : Option (List U16) :=
  match a.orderName with
  | some name => apidOrder name
  | none => some (a.order.getD [])

/-- ccsds-cmd merge.rs:15-46 with main.rs:363-375: the merger built from the arguments. `micros` is `|dt| (dt.to_utc_seconds() * 1_000_000.0) as u64`
(floating point, a parameter). -/
def mergerOf (micros : Epoch → Nat) (a : MergeArgs Path) (ord : List U16) : Merger Path :=
  let m := (Merger.new a.inputs (TimecodeDecoder.new (.cds 2 2))).withApidOrder ord
  let m := match a.from? with | some e => m.withFrom (micros e) | none => m
  let m := match a.to? with | some e => m.withTo (micros e) | none => m
  m.withApids a.apids

/-- The status of the process and what it wrote, from the result of `Merger::merge`. -/
def mergeEnd : Merger.MResult → Status × List (List U8)
  | .panic => (.panic, [])
  | .error w => (.error, w)
  | .ok w => (.ok, w)

/-- Opening and reading files. -/
def FS.files (fs : FS Path) (sched : Path → List U8 → Reader) : Path → Option MFile := fun p => (fs p).map fun c => ⟨c, sched p c⟩

/-- main.rs:339-376, ccsds-cmd merge.rs:15-51 `ccsds merge`: its possible results. The output is created (main.rs:360-361) before the inputs are opened. -/
inductive MergeRun (b : Build) (τ : Epoch → Int) (micros : Epoch → Nat) (sched : Path → List U8 → Reader) (a : MergeArgs Path) (fs : FS Path) :
    Status → FS Path → Prop where
  | exists_ : a.clobber = false → fs a.output ≠ none → MergeRun b τ micros sched a fs .error fs
  | badName : (a.clobber = true ∨ fs a.output = none) → orderOf a = none → MergeRun b τ micros sched a fs .error fs
  | createFails : (a.clobber = true ∨ fs a.output = none) → orderOf a ≠ none → MergeRun b τ micros sched a fs .error fs
  | noInputs : (a.clobber = true ∨ fs a.output = none) → orderOf a ≠ none → a.inputs = [] → MergeRun b τ micros sched a fs .error (fs.put a.output [])
  | ran {ord : List U16} {res : Merger.MResult} : (a.clobber = true ∨ fs a.output = none) → orderOf a = some ord → a.inputs ≠ [] →
      Merger.Merges b τ (mergerOf micros a ord) ((fs.put a.output []).files sched) res →
      MergeRun b τ micros sched a fs (mergeEnd res).1 (fs.put a.output (mergeEnd res).2.flatten)

/-- config.rs:8-24 `Config`; `rs` is (interleave, virtualfill). (`frame_type` has one value.) -/
structure FramingConfig where
  asm : Option (List U8)
  scid : U16
  length : Nat
  pn : Bool
  rs : Option (Nat × Nat)

/-- main.rs:447-456 the arguments of `framing` overridden by the configuration file; `cfg.interleave as u8` truncates. -/
def withConfig (a : Framing.Args) (c : FramingConfig) : Framing.Args :=
  let a := { a with length := c.length, pn := c.pn }
  match c.rs with
  | some (il, vf) => { a with reedSolomon := some (BitVec.ofNat 8 il), virtualfill := vf }
  | none => a

/-- main.rs:447-476 `ccsds framing` from the opened input on, when it ends normally; `none`: the error of line 459 (length 0). -/
inductive FramingRun (b : Build) (k : Codec) (a : Framing.Args) (cfg : Option FramingConfig) (workers : Nat) (r : Reader) :
    Option (Framing.Summary × List (List U8)) → Prop where
  | zeroLength : ((cfg.map (withConfig a)).getD a).length = 0 → FramingRun b k a cfg workers r none
  | ran {s : Framing.Summary} {w : List (List U8)} : ((cfg.map (withConfig a)).getD a).length ≠ 0 →
      Framing.Runs b k ((cfg.map (withConfig a)).getD a) workers r s w → FramingRun b k a cfg workers r (some (s, w))

end Ccsds.Cmd
