import Verif.Model.Sync
import Verif.Model.HMap
/-!
# The synchronizer's statistic `pattern_hits`

`Model.Sync` leaves out `Synchronizer::pattern_hits` (synchronizer.rs:83), which nothing reads. It is a map of `i32` counters, and counting itself can overflow. This is
`BlockIter::next` with the counters; `Props.PatternHits` says when that makes a difference.
-/
namespace Ccsds.Sync.Hits

/-- synchronizer.rs:174 `*count += 1` on an `i32` (two's complement) -/
def inc (b : Build) (x : BitVec 32) : Outcome (BitVec 32) :=
  if b.overflowChecks && decide (x = 0x7fffffff#32) then .panic else .ret (x + 1#32)

/-- synchronizer.rs:83 `pattern_hits` -/
abbrev Counts := HMap U8 (BitVec 32)

/-- synchronizer.rs:172-175 `self.pattern_hits.entry(..).and_modify(..).or_insert(1)` -/
def count (b : Build) (h : Counts) (k : U8) : Outcome Counts :=
  match h.get? k with
  | some c => do
    let c' ← inc b c
    .ret (h.insert k c')
  | none => .ret (h.insert k 1#32)

/-- `BlockIter` with the counters of its `Synchronizer` -/
structure State where
  iter : Iter
  hits : Counts
  deriving DecidableEq, Repr

/-- synchronizer.rs:93-104, 214-219: the counters start empty (`HashMap::new()`). -/
def start (r : Reader) (asm : List U8) (length : Nat) : State := ⟨Sync.iter r asm length, []⟩

/-- synchronizer.rs:253-274 `BlockIter::next`, where a successful `scan` (124-184) counts its pattern last thing (172-175). -/
def next (b : Build) (s : State) : Outcome (Option (Except Error Block) × State) :=
  match scan s.iter.scanner with
  | .panic => .panic
  | .ret (.ok none, sc) => .ret (none, { s with iter := { s.iter with scanner := sc } })
  | .ret (.error e, sc) => .ret (some (.error e), { s with iter := { s.iter with scanner := sc } })
  | .ret (.ok (some loc), sc) => do
    let hits ← count b s.hits (BitVec.ofNat 8 sc.patternIdx)
    if s.iter.last ≠ 0 ∧ loc.offset < s.iter.last then .panic
    else
      let last := if s.iter.last = 0 then 0 else loc.offset - s.iter.last
      match block sc with
      | (.ok data, sc) => .ret (some (.ok ⟨last, loc, data⟩), ⟨⟨sc, loc.offset⟩, hits⟩)
      | (.error e, sc) => .ret (some (.error e), ⟨⟨sc, loc.offset⟩, hits⟩)

end Ccsds.Sync.Hits
