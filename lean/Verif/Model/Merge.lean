import Verif.Model.Timecode
/-!
# `ccsds-lib/src/spacepacket/merge.rs`

Not modelled: logging, failing writers (see `Model.Writer`), files that change or fail to be read while `merge` runs (`File` is fixed content delivered in
arbitrary pieces, see `Spec.Reader.Delivers`).

`hifitime`'s comparison of epochs is taken to be the comparison of their instants `τ` (a parameter: for epochs of one scale it is the
nanosecond count, between UTC and TAI it involves the leap second table of `hifitime`). `Epoch`'s `Hash` agrees with its `Eq`.

Rust's `HashMap`/`HashSet` iterate in an unspecified order: every iteration is modelled as an arbitrary permutation.
-/
namespace Ccsds

/-- An input file: its content, and what reading it from the start gives. -/
structure MFile where
  content : List U8
  reader : Reader

/-- merge.rs:29-37 `Merger`; `order` is the `HashMap<Apid, i32>`. -/
structure Merger (Path : Type) where
  paths : List Path
  timeDecoder : TimecodeDecoder
  order : HMap U16 Int
  from? : Option Nat
  to? : Option Nat
  apids? : Option (List U16)

/-- merge.rs:192-205 `Ptr` -/
structure Ptr (Path : Type) where
  path : Path
  offset : Nat
  size : Nat
  time : Epoch
  apid : U16
  seqid : U16
  order : Int

namespace Merger
variable {Path : Type} [DecidableEq Path]

/-- merge.rs:46-55 `new` -/
def new (paths : List Path) (d : TimecodeDecoder) : Merger Path := ⟨paths, d, [], none, none, none⟩

/-- merge.rs:63-65 the loop of `with_apid_order`, from index `i`. (`i as i32` and the subtraction are exact below 2^31 entries.) -/
def orderLoop (m : HMap U16 Int) (i : Nat) : List U16 → HMap U16 Int
  | [] => m
  | a :: l => orderLoop (m.insert a (4096 - (i : Int))) (i + 1) l

/-- merge.rs:60-67 `with_apid_order` -/
def withApidOrder (m : Merger Path) (order : List U16) : Merger Path := { m with order := orderLoop m.order 0 order }
/-- merge.rs:70-73 -/
def withFrom (m : Merger Path) (t : Nat) : Merger Path := { m with from? := some t }
/-- merge.rs:76-79 -/
def withTo (m : Merger Path) (t : Nat) : Merger Path := { m with to? := some t }
/-- merge.rs:82-85 -/
def withApids (m : Merger Path) (a : List U16) : Merger Path := { m with apids? := some a }

/-- merge.rs:185-190 `epoch_or_default`. `dflt`: the days from 1900-01-01 to January 1st of the default year. -/
def epochOrDefault (t : Option Nat) (dflt : Nat) : Epoch :=
  match t with
  | none => ⟨.utc, dflt * 86400 * 1000000000⟩
  | some micros => ⟨.utc, micros * 1000⟩

/-- Days from 1900-01-01 to 2200-01-01. -/
def days2200 : Nat := 109573

/-- merge.rs:89 -/
def toEpoch (m : Merger Path) : Epoch := epochOrDefault m.to? days2200
/-- merge.rs:90 -/
def fromEpoch (m : Merger Path) : Epoch := epochOrDefault m.from? 0
/-- merge.rs:92 -/
def apids (m : Merger Path) : List U16 := m.apids?.getD []

/-- merge.rs:104-158 the closure of `filter_map` -/
def pointer (b : Build) (τ : Epoch → Int) (m : Merger Path) (path : Path) (g : PacketGroup) : Outcome (Option (Ptr Path)) :=
  match g.packets with
  | [] => .ret none
  | first :: _ =>
    if !(first.isFirst || first.isStandalone) then .ret none
    else do
      match ← m.timeDecoder.decode b first with
      | .error _ => .ret none
      | .ok epoch =>
        if τ epoch < τ m.fromEpoch then .ret none
        else if τ epoch ≥ τ m.toEpoch then .ret none
        else if !m.apids.isEmpty && !m.apids.contains first.header.apid then .ret none
        else
          let size := (g.packets.map fun p => PrimaryHeader.LEN + p.header.lenMinus1.toNat + 1).sum
          .ret (some ⟨path, first.offset, size, epoch, first.header.apid, first.header.sequenceId,
            (m.order.get? first.header.apid).getD (first.header.apid.toNat : Int)⟩)

end Merger

namespace Ptr
variable {Path : Type}

/-- merge.rs:215-219 `PartialEq` (and `Hash`, 207-213): the key -/
def key (τ : Epoch → Int) (p : Ptr Path) : U16 × Int × U16 := (p.apid, τ p.time, p.seqid)

/-- `HashSet::insert`: an equal element already present stays. -/
def insert (τ : Epoch → Int) (s : List (Ptr Path)) (p : Ptr Path) : List (Ptr Path) :=
  if p.key τ ∈ s.map (key τ) then s else s ++ [p]

/-- `a.difference(b)` -/
def diff (τ : Epoch → Int) (a b : List (Ptr Path)) : List (Ptr Path) := a.filter fun p => !decide (p.key τ ∈ b.map (key τ))

/-- merge.rs:161 `index.union(&pointers).cloned().collect()`: std iterates the larger set, then what the other has in addition. Sets are
lists up to permutation. -/
def union (τ : Epoch → Int) (a b : List (Ptr Path)) : List (Ptr Path) :=
  if b.length ≤ a.length then a ++ diff τ b a else b ++ diff τ a b

/-- merge.rs:166 the sort key comparison `(time, order)` -/
def le (τ : Epoch → Int) (p q : Ptr Path) : Bool := τ p.time < τ q.time || (τ p.time == τ q.time && p.order ≤ q.order)

end Ptr

namespace Merger
variable {Path : Type} [DecidableEq Path]

/-- merge.rs:102-159: the pointers of the groups, collected into a `HashSet`, in iteration order. A panic of the closure is a panic. -/
def pointersLoop (b : Build) (τ : Epoch → Int) (m : Merger Path) (path : Path) : List PacketGroup → List (Ptr Path) → Outcome (List (Ptr Path))
  | [], acc => .ret acc
  | g :: gs, acc => do
    match ← m.pointer b τ path g with
    | none => pointersLoop b τ m path gs acc
    | some p => pointersLoop b τ m path gs (Ptr.insert τ acc p)

/-- merge.rs:101-159 the pointers of one file; `none` stands for a panic (of the packet decoder or the closure). Packets are listed up to the first end of the input, then grouped;
the code interleaves the two (`Lazy.Pointers`), which gives the same for every input that ends once (`C102_merge_partial`). -/
def Pointers (b : Build) (τ : Epoch → Int) (m : Merger Path) (path : Path) (f : MFile) (r : Option (List (Ptr Path))) : Prop :=
  ∃ items e, Collects PacketDecoder.next (PacketDecoder.new f.reader) items e ∧
    ∃ gitems s, Collects PacketGroupIter.next (PacketGroupIter.new (oks items)) gitems (some s) ∧
      match e, m.pointersLoop b τ path (oks gitems) [] with
      | some _, .ret ps => r = some ps
      | _, _ => r = none

/-- merge.rs:99-162 the loop over the readers, which are visited in the order of the first argument, with the index built so far. -/
inductive Index (b : Build) (τ : Epoch → Int) (m : Merger Path) (files : Path → Option MFile) :
    List Path → List (Ptr Path) → Option (List (Ptr Path)) → Prop where
  | done {idx : List (Ptr Path)} : Index b τ m files [] idx (some idx)
  | panicked {p : Path} {ps : List Path} {f : MFile} {idx : List (Ptr Path)} : files p = some f → m.Pointers b τ p f none →
      Index b τ m files (p :: ps) idx none
  | step {p : Path} {ps : List Path} {f : MFile} {idx idx' new new' : List (Ptr Path)} {r : Option (List (Ptr Path))} : files p = some f →
      m.Pointers b τ p f (some new) → new'.Perm new → idx'.Perm idx → Index b τ m files ps (Ptr.union τ idx' new') r →
      Index b τ m files (p :: ps) idx r

/-- What a call of `merge` did: it panicked before writing, failed with an error, or succeeded; with the buffers passed to `write_all`. -/
inductive MResult where
  | panic
  | error (written : List (List U8))
  | ok (written : List (List U8))

/-- merge.rs:168-181 the output loop; `seek` beyond the end succeeds, `read_exact` then fails. -/
def emit (files : Path → Option MFile) : List (Ptr Path) → List (List U8) → MResult
  | [], out => .ok out
  | p :: ps, out =>
    match files p.path with
    | none => .panic
    | some f =>
      let buf := (f.content.drop p.offset).take p.size
      if buf.length < p.size then .error out else emit files ps (out ++ [buf])

/-- The distinct elements of a list (the keys of the `readers` map). -/
def distinct : List Path → List Path
  | [] => []
  | p :: ps => if p ∈ ps then distinct ps else p :: distinct ps

/-- merge.rs:88-182 `merge`: the possible results. -/
inductive Merges (b : Build) (τ : Epoch → Int) (m : Merger Path) (files : Path → Option MFile) : MResult → Prop where
  | openFails {p : Path} : p ∈ m.paths → files p = none → Merges b τ m files (.error [])
  | panicked {visit : List Path} : (∀ p ∈ m.paths, files p ≠ none) → visit.Perm (distinct m.paths) → Index b τ m files visit [] none →
      Merges b τ m files .panic
  | finished {visit : List Path} {idx idx' : List (Ptr Path)} : (∀ p ∈ m.paths, files p ≠ none) → visit.Perm (distinct m.paths) →
      Index b τ m files visit [] (some idx) → idx'.Perm idx →
      Merges b τ m files (emit files (idx'.mergeSort (Ptr.le τ)) [])

end Merger
end Ccsds
