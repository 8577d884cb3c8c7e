import Verif.Model.Merge
/-!
# `ccsds-cmd/src/diff.rs`

What is compared and found. The text printed, with `*left as i32 - *right as i32` (diff.rs:56), is in `Model/Stdout.lean`. The CRC-32 of the `crc` crate is a parameter.
-/
namespace Ccsds.Diff

/-- diff.rs:6-7 `Key(apid, sequence_id, crc)` -/
structure Key where
  apid : U16
  seq : U16
  crc : U32
  deriving DecidableEq

/-- `<` of the derived `Ord`: lexicographic -/
def Key.lt (a b : Key) : Bool :=
  a.apid < b.apid || (a.apid == b.apid && (a.seq < b.seq || (a.seq == b.seq && a.crc < b.crc)))

/-- `cmp` of the derived `Ord` -/
def Key.cmp (a b : Key) : Ordering := if a = b then .eq else if a.lt b then .lt else .gt

/-- A printed line: diff.rs:69-80 `print_left`, `print_right` -/
inductive Line where
  | left (k : Key)
  | right (k : Key)
  deriving DecidableEq

/-- diff.rs:15-22, 28-35 the closure of `map`, without the counting. The slice panics on packets shorter than a header. -/
def key (crc : List U8 → U32) (p : Packet) : Outcome Key :=
  if p.data.length < PrimaryHeader.LEN then .panic else .ret ⟨p.header.apid, p.header.sequenceId, crc (p.data.drop PrimaryHeader.LEN)⟩

/-- The keys of all packets -/
def keys (crc : List U8 → U32) : List Packet → Outcome (List Key)
  | [] => .ret []
  | p :: ps => do
    let k ← key crc p
    let ks ← keys crc ps
    .ret (k :: ks)

/-- diff.rs:16-17 -/
def countLeft (m : HMap U16 (Nat × Nat)) (p : Packet) : HMap U16 (Nat × Nat) :=
  let c := (m.get? p.header.apid).getD (0, 0)
  m.insert p.header.apid (c.1 + 1, c.2)
/-- diff.rs:29-30 -/
def countRight (m : HMap U16 (Nat × Nat)) (p : Packet) : HMap U16 (Nat × Nat) :=
  let c := (m.get? p.header.apid).getD (0, 0)
  m.insert p.header.apid (c.1, c.2 + 1)

/-- diff.rs:10-36 `apid_counts` after both files -/
def counts (l r : List Packet) : HMap U16 (Nat × Nat) := r.foldl countRight (l.foldl countLeft [])

/-- diff.rs:44-61 the table of counts: the APIDs sorted, those with equal counts left out -/
def table (m : HMap U16 (Nat × Nat)) : List (U16 × Nat × Nat) :=
  ((m.keys.mergeSort (· ≤ ·)).map (fun a => (a, (m.get? a).getD (0, 0)))).filter fun x => x.2.1 ≠ x.2.2

/-- diff.rs:82-122 the loop: `cached_left`, the rest of `left`, `cached_right`, the rest of `right`. The lines printed; `differences` is their
number. -/
def loop : Option Key → List Key → Option Key → List Key → List Line
  | none, _, _, right => right.map .right
  | some _, left, none, _ => left.map .left
  | some cl, left, some cr, right =>
    match cl.cmp cr with
    | .lt => .left cl :: loop left.head? left.tail (some cr) right
    | .gt => .right cr :: loop (some cl) left right.head? right.tail
    | .eq => loop left.head? left.tail right.head? right.tail
termination_by cl l cr r => cl.toList.length + l.length + cr.toList.length + r.length
decreasing_by
  all_goals simp only [Option.toList, List.length_cons, List.length_nil]
  · cases left <;> simp
  · cases right <;> simp
  · cases left <;> cases right <;> simp <;> omega

/-- How `diff` ended; `table` is printed with `--verbose` (`show_counts`) only. -/
inductive DResult where
  | panic
  | cannotOpen
  | noPackets
  | same (table : Option (List (U16 × Nat × Nat)))
  | differ (table : Option (List (U16 × Nat × Nat))) (lines : List Line)
  deriving DecidableEq

/-- diff.rs:24-128 from the packets on -/
def compare (crc : List U8 → U32) (l r : List Packet) (showCounts : Bool) : DResult :=
  match keys crc l, keys crc r with
  | .ret kl, .ret kr =>
    let kl := kl.mergeSort (fun a b => !b.lt a)
    let kr := kr.mergeSort (fun a b => !b.lt a)
    if kl.isEmpty && kr.isEmpty then .noPackets
    else
      let t := if showCounts then some (table (counts l r)) else none
      let lines := loop kl.head? kl.tail kr.head? kr.tail
      if lines.length ≠ 0 then .differ t lines else .same t
  | _, _ => .panic

/-- diff.rs:9-128 `diff` on two files (`none`: cannot be opened). -/
inductive Runs (crc : List U8 → U32) (left right : Option MFile) (showCounts : Bool) : DResult → Prop where
  | noLeft : left = none → Runs crc left right showCounts .cannotOpen
  | leftPanics {f : MFile} {items : List (Except Error Packet)} : left = some f →
      Collects PacketDecoder.next (PacketDecoder.new f.reader) items none → Runs crc left right showCounts .panic
  | noRight {f : MFile} {items : List (Except Error Packet)} {s : PacketDecoder} : left = some f →
      Collects PacketDecoder.next (PacketDecoder.new f.reader) items (some s) → right = none → Runs crc left right showCounts .cannotOpen
  | rightPanics {f g : MFile} {items gitems : List (Except Error Packet)} {s : PacketDecoder} : left = some f →
      Collects PacketDecoder.next (PacketDecoder.new f.reader) items (some s) → right = some g →
      Collects PacketDecoder.next (PacketDecoder.new g.reader) gitems none → Runs crc left right showCounts .panic
  | compared {f g : MFile} {items gitems : List (Except Error Packet)} {s t : PacketDecoder} : left = some f →
      Collects PacketDecoder.next (PacketDecoder.new f.reader) items (some s) → right = some g →
      Collects PacketDecoder.next (PacketDecoder.new g.reader) gitems (some t) →
      Runs crc left right showCounts (compare crc (oks items) (oks gitems) showCounts)

end Ccsds.Diff
