import Verif.Model.Merge
/-!
# `ccsds-cmd/src/filter.rs`

Not modelled: logging, failing writers (see `Model.Writer`). Epochs are compared through `τ` as in `Model.Merge`.
-/
namespace Ccsds.Filter

/-- filter.rs:14 `Ptr(data, apid, stamp)` -/
structure Item where
  data : List U8
  apid : U16
  stamp : Epoch
  deriving DecidableEq

/-- How a call of `filter` ended, with the buffers passed to `write_all` until then. -/
inductive FResult where
  /-- `bail!("no filters specified")` -/
  | noFilters
  | ok (written : List (List U8))
  | panic (written : List (List U8))
  deriving DecidableEq

/-- filter.rs:22-25 -/
def decoder : TimecodeDecoder := TimecodeDecoder.new (.cds 2 2)
/-- filter.rs:70 -/
def minEpoch : Epoch := ⟨.utc, 0⟩
/-- filter.rs:71 -/
def maxEpoch : Epoch := ⟨.utc, 73049 * 86400 * 1000000000⟩

/-- filter.rs:20-55 the closure of the second `filter_map` of `packets_with_times` (`total_size` is a capacity hint) -/
def timed (b : Build) (g : PacketGroup) : Outcome (Option Item) :=
  match g.packets with
  | [] => .ret none
  | first :: _ =>
    if first.isLast || first.isCont then .ret none
    else do
      match ← decoder.decode b first with
      | .error _ => .ret none
      | .ok e => .ret (some ⟨g.packets.flatMap Packet.data, first.header.apid, e⟩)

/-- The items of the groups, up to a panic of the closure (`false`). -/
def timedAll (b : Build) : List PacketGroup → List Item × Bool
  | [] => ([], true)
  | g :: gs =>
    match timed b g with
    | .panic => ([], false)
    | .ret none => timedAll b gs
    | .ret (some i) => (i :: (timedAll b gs).1, (timedAll b gs).2)

/-- The groups that `collect_groups` hands out before the packet iterator panics, given the groups it would hand out had the iterator ended:
the last group is still being collected, unless it is a standalone packet, which is handed out at once (mod.rs:543-549). -/
def beforePanic (gs : List PacketGroup) : List PacketGroup :=
  match gs.getLast? with
  | some g => if (g.packets.head?.map Packet.isStandalone).getD false then gs else gs.dropLast
  | none => []

/-- filter.rs:16-56 `packets_with_times(input)`: the items, and whether the iterator then ends (rather than panics). Packets are listed up to the first end of the input, then
grouped; the code interleaves the two (`Lazy.PacketsWithTimes`), which gives the same for every input that ends once (`C102_timed_partial`). -/
def PacketsWithTimes (b : Build) (r : Reader) (items : List Item) (ends : Bool) : Prop :=
  ∃ pitems e, Collects PacketDecoder.next (PacketDecoder.new r) pitems e ∧
    ∃ gitems s, Collects PacketGroupIter.next (PacketGroupIter.new (oks pitems)) gitems (some s) ∧
      match e with
      | some _ => timedAll b (oks gitems) = (items, ends)
      | none => ends = false ∧ (timedAll b (beforePanic (oks gitems))).1 = items

/-- `Iterator::map_while(Result::ok)`: `next` -/
def mapWhileOk {S α ε : Type} (next : S → Outcome (Option (Except ε α) × S)) (s : S) : Outcome (Option α × S) := do
  match ← next s with
  | (some (.ok a), s') => .ret (some a, s')
  | (_, s') => .ret (none, s')

/-- filter.rs:80-84 the untimed iterator -/
def PacketsUntimed (r : Reader) (items : List Item) (ends : Bool) : Prop :=
  ∃ ps e, Collects (mapWhileOk PacketDecoder.next) (PacketDecoder.new r) ps e ∧
    items = ps.map (fun p => ⟨p.data, p.header.apid, minEpoch⟩) ∧ ends = e.isSome

/-- filter.rs:96-136 whether the loop body reaches `write_all` (87-94: the bounds with their defaults) -/
def keep (τ : Epoch → Int) (incl excl : List U16) (before after : Option Epoch) (i : Item) : Bool :=
  let haveBefore := before.isSome
  let haveAfter := after.isSome
  let bef := before.getD maxEpoch
  let aft := after.getD minEpoch
  if haveBefore && haveAfter && decide (τ i.stamp < τ aft) || decide (τ i.stamp ≥ τ bef) then false
  else if haveBefore && decide (τ i.stamp ≥ τ bef) then false
  else if haveAfter && decide (τ i.stamp < τ aft) then false
  else if !incl.isEmpty && !incl.contains i.apid then false
  else if !excl.isEmpty && excl.contains i.apid then false
  else true

/-- filter.rs:96-137 the loop -/
def writes (τ : Epoch → Int) (incl excl : List U16) (before after : Option Epoch) (items : List Item) : List (List U8) :=
  (items.filter (keep τ incl excl before after)).map Item.data

/-- filter.rs:58-140 `filter` -/
inductive Runs (b : Build) (τ : Epoch → Int) (r : Reader) (incl excl : List U16) (before after : Option Epoch) : FResult → Prop where
  | noFilters : incl = [] → excl = [] → before = none → after = none → Runs b τ r incl excl before after .noFilters
  | run {items : List Item} {ends : Bool} : ¬ (incl = [] ∧ excl = [] ∧ before = none ∧ after = none) →
      (if before.isSome || after.isSome then PacketsWithTimes b r items ends else PacketsUntimed r items ends) →
      Runs b τ r incl excl before after
        (if ends then .ok (writes τ incl excl before after items) else .panic (writes τ incl excl before after items))

end Ccsds.Filter
