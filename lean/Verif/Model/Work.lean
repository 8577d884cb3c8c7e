import Verif.Model.Sync
/-!
# How often the synchronizer compares a byte

`BlockIter::next` with a count of the passes through the comparison loop of `Synchronizer::scan` (synchronizer.rs:129-162): each takes one byte from `Bytes`, masks it and compares
it. `Props.Work` says how many there can be.
-/
namespace Ccsds.Sync.Work

/-- synchronizer.rs:129-162, one run of the `for` loop (`Sync.attempt`), and the number of passes through its body -/
def attempt : List (U8 × U8) → List U8 → Bytes → Attempt × Nat
  | [], working, bytes => (.found working bytes, 0)
  | (p, m) :: pm, working, bytes =>
    match bytes.next with
    | (.error k, bytes) => (.io k bytes, 1)
    | (.ok b, bytes) =>
      if b &&& m ≠ p then (.mismatch (working ++ [b]) bytes, 1)
      else ((attempt pm (working ++ [b]) bytes).1, (attempt pm (working ++ [b]) bytes).2 + 1)

theorem attempt_same (pm : List (U8 × U8)) : ∀ w s, (attempt pm w s).1 = Sync.attempt pm w s := by
  induction pm with
  | nil => intro w s; rfl
  | cons e pm ih =>
    obtain ⟨p, m⟩ := e
    intro w s
    rw [attempt, Sync.attempt]
    rcases s.next with ⟨_ | b, s'⟩
    · rfl
    · simp only
      split
      · rfl
      · exact ih _ _

/-- synchronizer.rs:124-184 `scan` (`Sync.scan`), and the number of passes through the comparison loop -/
def scan (s : State) : Outcome (Except Error (Option Loc) × State) × Nat :=
  if _h8 : 8 ≤ s.patternIdx then (.panic, 0)
  else
  match s.patterns[s.patternIdx]?, s.masks[s.patternIdx]? with
  | some pat, some mask =>
    let n := (attempt (pat.zip mask) [] s.bytes).2
    match hat : (attempt (pat.zip mask) [] s.bytes).1 with
    | .io k bytes =>
      (if k = .unexpectedEof then .ret (.ok none, { s with bytes := bytes }) else .ret (.error (.io k), { s with bytes := bytes }), n)
    | .mismatch working bytes =>
      if s.patternIdx + 1 = 8 then
        let r := scan { s with patternIdx := 0, bytes := bytes.push (working.reverse.take (working.length - 1)) }
        (r.1, n + r.2)
      else
        let r := scan { s with patternIdx := s.patternIdx + 1, bytes := bytes.push working.reverse }
        (r.1, n + r.2)
    | .found working bytes =>
      if bytes.numRead < bytes.cache.length then (.panic, n) else
      let bit := BitVec.ofNat 8 ((8 - s.patternIdx) % 8)
      let offset := if bit = 0#8 then bytes.offset + 1 else bytes.offset
      let b := working.getLast?.getD 0#8
      let bytes := if s.patternIdx > 0 then bytes.push [b] else bytes
      (.ret (.ok (some ⟨offset, bit⟩), { s with bytes := bytes }), n)
  | _, _ => (.panic, 0)
termination_by (s.bytes.size, 8 - s.patternIdx)
decreasing_by
  · rw [attempt_same] at hat
    have := attempt_size _ _ _ _ _ hat
    simp only [List.length_nil, Nat.add_zero] at this
    apply Prod.Lex.left
    rw [push_size]
    simp only [List.length_take, List.length_reverse]
    omega
  · rw [attempt_same] at hat
    have := attempt_size _ _ _ _ _ hat
    simp only [List.length_nil, Nat.add_zero] at this
    have e : (bytes.push working.reverse).size = s.bytes.size := by
      rw [push_size]; simp only [List.length_reverse]; omega
    simp only [e]
    apply Prod.Lex.right
    omega

/-- synchronizer.rs:253-274 `BlockIter::next` (`Sync.next`), and the number of comparisons it makes -/
def next (s : Iter) : Outcome (Option (Except Error Block) × Iter) × Nat :=
  let r := scan s.scanner
  (match r.1 with
  | .panic => .panic
  | .ret (.ok none, sc) => .ret (none, { s with scanner := sc })
  | .ret (.error e, sc) => .ret (some (.error e), { s with scanner := sc })
  | .ret (.ok (some loc), sc) =>
    if s.last ≠ 0 ∧ loc.offset < s.last then .panic
    else
      let last := if s.last = 0 then 0 else loc.offset - s.last
      match block sc with
      | (.ok data, sc) => .ret (some (.ok ⟨last, loc, data⟩), ⟨sc, loc.offset⟩)
      | (.error e, sc) => .ret (some (.error e), ⟨sc, loc.offset⟩), r.2)

/-- A loop over that iterator (`Collects`), and the comparisons made from its beginning to its end -/
inductive Collects : Iter → List (Except Error Block) → Option Iter → Nat → Prop where
  | done {s s' : Iter} {n : Nat} : next s = (.ret (none, s'), n) → Collects s [] (some s') n
  | panicked {s : Iter} {n : Nat} : next s = (.panic, n) → Collects s [] none n
  | step {s s' : Iter} {a : Except Error Block} {as : List (Except Error Block)} {e : Option Iter} {n k : Nat} :
      next s = (.ret (some a, s'), n) → Collects s' as e k → Collects s (a :: as) e (n + k)

/-- The beginning of such a loop (`Takes`), and the comparisons made in it -/
inductive Takes : Iter → List (Except Error Block) → Iter → Nat → Prop where
  | nil {s : Iter} : Takes s [] s 0
  | cons {s s' t : Iter} {a : Except Error Block} {as : List (Except Error Block)} {n k : Nat} :
      next s = (.ret (some a, s'), n) → Takes s' as t k → Takes s (a :: as) t (n + k)

end Ccsds.Sync.Work
