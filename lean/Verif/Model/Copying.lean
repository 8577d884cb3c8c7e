import Verif.Model.Writer
/-!
# The copying loop of `Merger::merge` at the level of system calls

merge.rs:168-179.  `Model.Merge` and `Model.Writer` take the bytes of each group from the content of the file.  Here each `seek` and each `read` of the loop has a result of its own, as has
each `write`.
-/
namespace Ccsds

/-- What the system does when merge.rs:172 seeks to a group: the `seek` fails (as it does on a pipe), or the `read`s that follow have the results of a reader.  `BufReader::seek` discards its
buffer, and a `BufReader` in between changes nothing in what `read_exact` returns (`C100_buffered_read_exact`). -/
inductive Access where
  | noSeek
  | reads (r : Reader)

/-- The system: what happens at the `i`-th turn of the loop (merge.rs:168) when file `p` is accessed at an offset. -/
abbrev Sys (Path : Type) := Nat → Path → Nat → Access

namespace Merger
variable {Path : Type} [DecidableEq Path]

/-- merge.rs:168-179 the loop, with the `?` of lines 172, 175 and 178. (Line 170 does not panic: every path of the index was opened.) -/
def copies (sys : Sys Path) : Nat → List WEv → List (Ptr Path) → List (List U8) → MResult
  | _, _, [], out => .ok out
  | i, s, p :: ps, out =>
    match sys i p.path p.offset with
    | .noSeek => .error out
    | .reads r =>
      match r.readExact p.size with
      | (some _, _, _) => .error out
      | (none, buf, _) =>
        match writeAll s buf with
        | (false, w, _) => .error (out ++ [w])
        | (true, w, s') => copies sys (i + 1) s' ps (out ++ [w])

/-- merge.rs:88-182 `merge`, with `copies` as its last loop. -/
inductive MergesS (b : Build) (τ : Epoch → Int) (m : Merger Path) (files : Path → Option MFile) (sys : Sys Path) (s : List WEv) : MResult → Prop where
  | openFails {p : Path} : p ∈ m.paths → files p = none → MergesS b τ m files sys s (.error [])
  | panicked {visit : List Path} : (∀ p ∈ m.paths, files p ≠ none) → visit.Perm (distinct m.paths) → Index b τ m files visit [] none →
      MergesS b τ m files sys s .panic
  | finished {visit : List Path} {idx idx' : List (Ptr Path)} : (∀ p ∈ m.paths, files p ≠ none) → visit.Perm (distinct m.paths) →
      Index b τ m files visit [] (some idx) → idx'.Perm idx →
      MergesS b τ m files sys s (copies sys 0 s (idx'.mergeSort (Ptr.le τ)) [])

end Merger

namespace Cmd
variable {Path : Type} [DecidableEq Path]

/-- main.rs:339-376 `ccsds merge`, with the system calls of its copying loop. -/
inductive MergeRunS (b : Build) (τ : Epoch → Int) (micros : Epoch → Nat) (sched : Path → List U8 → Reader) (sys : Sys Path) (a : MergeArgs Path) (fs : FS Path) (s : List WEv) :
    Status → FS Path → Prop where
  | exists_ : a.clobber = false → fs a.output ≠ none → MergeRunS b τ micros sched sys a fs s .error fs
  | badName : (a.clobber = true ∨ fs a.output = none) → orderOf a = none → MergeRunS b τ micros sched sys a fs s .error fs
  | createFails : (a.clobber = true ∨ fs a.output = none) → orderOf a ≠ none → MergeRunS b τ micros sched sys a fs s .error fs
  | noInputs : (a.clobber = true ∨ fs a.output = none) → orderOf a ≠ none → a.inputs = [] → MergeRunS b τ micros sched sys a fs s .error (fs.put a.output [])
  | ran {ord : List U16} {res : Merger.MResult} : (a.clobber = true ∨ fs a.output = none) → orderOf a = some ord → a.inputs ≠ [] →
      Merger.MergesS b τ (mergerOf micros a ord) ((fs.put a.output []).files sched) sys s res →
      MergeRunS b τ micros sched sys a fs s (mergeEnd res).1 (fs.put a.output (mergeEnd res).2.flatten)

end Cmd
end Ccsds
