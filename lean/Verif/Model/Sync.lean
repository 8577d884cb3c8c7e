import Verif.Model.Frame
/-!
# `ccsds-lib/src/framing/bytes.rs`, `ccsds-lib/src/framing/synchronizer.rs`, `ccsds-lib/src/framing/pipeline/synchronize.rs`
-/
namespace Ccsds

/-- bytes.rs:3-8 `Bytes`. The one-byte scratch buffer `buf` is not kept: only its fresh content is used. -/
structure Bytes where
  reader : Reader
  numRead : Nat
  cache : List U8
  deriving DecidableEq, Repr

namespace Bytes

/-- bytes.rs:14-21 -/
def new (r : Reader) : Bytes := ⟨r, 0, []⟩

/-- bytes.rs:23-34 `next`. The cache is popped from its end. -/
def next (s : Bytes) : Except IoKind U8 × Bytes :=
  match s.cache.getLast? with
  | some b => (.ok b, { s with cache := s.cache.dropLast })
  | none =>
    match s.reader.read 1 with
    | (.error k, r) => (.error k, { s with reader := r })
    | (.ok [], r) => (.error .unexpectedEof, { s with reader := r })
    | (.ok (b :: _), r) => (.ok b, { s with reader := r, numRead := s.numRead + 1 })

/-- bytes.rs:36-65 `fill` of a zeroed buffer of `n` bytes: result, buffer contents afterwards, state.
`read_exact` leaves the bytes it did read in the buffer when it fails (`std`'s default implementation). -/
def fill (s : Bytes) (n : Nat) : Except IoKind Bool × List U8 × Bytes :=
  if s.cache.isEmpty then
    match s.reader.readExact n with
    | (some k, got, r) =>
      let buf := got ++ List.replicate (n - got.length) 0#8
      if k = .unexpectedEof then (.ok false, buf, { s with reader := r }) else (.error k, buf, { s with reader := r })
    | (none, got, r) => (.ok true, got, { s with reader := r, numRead := s.numRead + n })
  else if s.cache.length < n then
    match s.reader.readExact (n - s.cache.length) with
    | (some k, got, r) =>
      (.error k, s.cache ++ got ++ List.replicate (n - s.cache.length - got.length) 0#8, { s with reader := r })
    | (none, got, r) =>
      (.ok true, s.cache ++ got, { reader := r, numRead := s.numRead + (n - s.cache.length), cache := [] })
  else (.ok true, s.cache.take n, { s with cache := s.cache.drop n })

/-- bytes.rs:67-69 -/
def push (s : Bytes) (dat : List U8) : Bytes := { s with cache := s.cache ++ dat }

/-- bytes.rs:71-73. A `usize` subtraction (`scan` below models its panic). -/
def offset (s : Bytes) : Nat := s.numRead - s.cache.length

/-- Bytes left (used for termination only). -/
def size (s : Bytes) : Nat := s.cache.length + (s.reader.script.map fun e => match e with | .data c => c.length | .err _ => 0).sum

end Bytes

namespace Sync

/-- synchronizer.rs:8 -/
def ASM : List U8 := [0x1a, 0xcf, 0xfc, 0x1d]

/-- synchronizer.rs:11-24 `left_shift`; `k < 8`. (Callers never pass an empty slice with `k ≠ 0`.) -/
def leftShift (k : Nat) : List U8 → List U8
  | [] => []
  | [a] => [a <<< k]
  | a :: b :: r => (if k ≠ 0 then (a <<< k) ||| (b >>> (8 - k)) else a <<< k) :: leftShift k (b :: r)

/-- synchronizer.rs:28-54 `create_patterns`, the patterns. -/
def patterns (dat : List U8) : List (List U8) :=
  dat :: (List.range' 1 7).map fun i => leftShift (8 - i) (0#8 :: dat)

/-- synchronizer.rs:28-54 `create_patterns`, the masks. -/
def masks (dat : List U8) : List (List U8) :=
  List.replicate dat.length 0xff#8 :: (List.range' 1 7).map fun i => leftShift (8 - i) (0#8 :: List.replicate dat.length 0xff#8)

/-- synchronizer.rs:71-84 `Synchronizer`. `pattern_hits` is a statistic nothing in the library reads; it is left out here and added
in `Model.PatternHits`, because counting can overflow. -/
structure State where
  bytes : Bytes
  blockSize : Nat
  patterns : List (List U8)
  masks : List (List U8)
  patternIdx : Nat
  deriving DecidableEq, Repr

/-- synchronizer.rs:93-104 `new` -/
def new (r : Reader) (blockSize : Nat) : State := ⟨Bytes.new r, blockSize, Sync.patterns ASM, Sync.masks ASM, 0⟩

/-- synchronizer.rs:107-112 `with_asm` -/
def State.withAsm (s : State) (asm : List U8) : State := { s with patterns := Sync.patterns asm, masks := Sync.masks asm }

/-- The three ways the byte loop of `scan` (synchronizer.rs:129-162) is left. -/
inductive Attempt where
  | io (k : IoKind) (bytes : Bytes)
  | mismatch (working : List U8) (bytes : Bytes)
  | found (working : List U8) (bytes : Bytes)

/-- synchronizer.rs:129-162: compare the next bytes with one pattern (`pm` are its bytes with their masks). -/
def attempt : List (U8 × U8) → List U8 → Bytes → Attempt
  | [], working, bytes => .found working bytes
  | (p, m) :: pm, working, bytes =>
    match bytes.next with
    | (.error k, bytes) => .io k bytes
    | (.ok b, bytes) =>
      if b &&& m ≠ p then .mismatch (working ++ [b]) bytes else attempt pm (working ++ [b]) bytes

theorem Bytes_next_size (s s' : Bytes) (b : U8) (h : s.next = (.ok b, s')) : s'.size + 1 = s.size := by
  unfold Bytes.next at h
  cases hc : s.cache.getLast? with
  | some x =>
    rw [hc] at h
    simp only [Prod.mk.injEq] at h
    obtain ⟨_, rfl⟩ := h
    have : s.cache ≠ [] := by intro e; simp [e] at hc
    simp only [Bytes.size, List.length_dropLast]
    have := List.length_pos_iff.2 this
    omega
  | none =>
    rw [hc] at h
    unfold Reader.read at h
    cases hs : s.reader.script with
    | nil => rw [hs] at h; cases ht : s.reader.tail <;> rw [ht] at h <;> simp at h
    | cons e rest =>
      rw [hs] at h
      cases e with
      | err k => simp at h
      | data c =>
        match c with
        | [] => simp at h
        | [x] =>
          simp at h
          obtain ⟨_, rfl⟩ := h
          simp [Bytes.size, hs]; omega
        | x :: y :: c =>
          simp at h
          obtain ⟨_, rfl⟩ := h
          simp [Bytes.size, hs]; omega

theorem attempt_size (pm : List (U8 × U8)) : ∀ (w : List U8) (s : Bytes) (w' : List U8) (s' : Bytes),
    attempt pm w s = .mismatch w' s' → s'.size + w'.length = s.size + w.length ∧ 0 < w'.length := by
  induction pm with
  | nil => intro w s w' s' h; simp [attempt] at h
  | cons e pm ih =>
    obtain ⟨p, m⟩ := e
    intro w s w' s' h
    rw [attempt] at h
    cases hn : s.next with
    | mk r t =>
      rw [hn] at h
      cases r with
      | error k => simp at h
      | ok b =>
        have hb := Bytes_next_size s t b hn
        simp only at h
        split at h
        · simp only [Attempt.mismatch.injEq] at h
          obtain ⟨rfl, rfl⟩ := h
          simp; omega
        · obtain ⟨a, b'⟩ := ih _ _ _ _ h
          simp only [List.length_append, List.length_singleton] at a
          omega

theorem push_size (s : Bytes) (d : List U8) : (s.push d).size = s.size + d.length := by
  simp [Bytes.push, Bytes.size]; omega

/-- synchronizer.rs:124-184 `scan`. The outer `loop` is the recursion. `working` is empty at its head. An index outside the
pattern table would panic. -/
def scan (s : State) : Outcome (Except Error (Option Loc) × State) :=
  if h8 : 8 ≤ s.patternIdx then .panic
  else
  match s.patterns[s.patternIdx]?, s.masks[s.patternIdx]? with
  | some pat, some mask =>
    match hat : attempt (pat.zip mask) [] s.bytes with
    | .io k bytes =>
      if k = .unexpectedEof then .ret (.ok none, { s with bytes := bytes }) else .ret (.error (.io k), { s with bytes := bytes })
    | .mismatch working bytes =>
      if h7 : s.patternIdx + 1 = 8 then
        scan { s with patternIdx := 0, bytes := bytes.push (working.reverse.take (working.length - 1)) }
      else
        scan { s with patternIdx := s.patternIdx + 1, bytes := bytes.push working.reverse }
    | .found working bytes =>
      if bytes.numRead < bytes.cache.length then .panic else
      let bit := BitVec.ofNat 8 ((8 - s.patternIdx) % 8)
      let offset := if bit = 0#8 then bytes.offset + 1 else bytes.offset
      let b := working.getLast?.getD 0#8
      let bytes := if s.patternIdx > 0 then bytes.push [b] else bytes
      .ret (.ok (some ⟨offset, bit⟩), { s with bytes := bytes })
  | _, _ => .panic
termination_by (s.bytes.size, 8 - s.patternIdx)
decreasing_by
  · have := attempt_size _ _ _ _ _ hat
    simp only [List.length_nil, Nat.add_zero] at this
    apply Prod.Lex.left
    rw [push_size]
    simp only [List.length_take, List.length_reverse]
    omega
  · have := attempt_size _ _ _ _ _ hat
    simp only [List.length_nil, Nat.add_zero] at this
    have e : (bytes.push working.reverse).size = s.bytes.size := by
      rw [push_size]; simp only [List.length_reverse]; omega
    simp only [e]
    apply Prod.Lex.right
    omega

/-- synchronizer.rs:190-204 `block`. A short read at a byte boundary (`Ok(false)` from `fill`) is ignored, as in the code. -/
def block (s : State) : Except Error (List U8) × State :=
  let n := if s.patternIdx ≠ 0 then s.blockSize + 1 else s.blockSize
  match s.bytes.fill n with
  | (.error k, _, bytes) => (.error (.io k), { s with bytes := bytes })
  | (.ok _, buf, bytes) =>
    let bytes := if s.patternIdx ≠ 0 then bytes.push [buf.getLast?.getD 0#8] else bytes
    (.ok ((leftShift s.patternIdx buf).take s.blockSize), { s with bytes := bytes })

/-- synchronizer.rs:239-245 `BlockIter` -/
structure Iter where
  scanner : State
  last : Nat
  deriving DecidableEq, Repr

/-- synchronizer.rs:214-219, pipeline/synchronize.rs:47-55, 80-87 `synchronize(reader, SyncOpts::new(length).with_asm(asm))`. -/
def iter (r : Reader) (asm : List U8) (length : Nat) : Iter := ⟨(new r length).withAsm asm, 0⟩

/-- synchronizer.rs:253-274 `BlockIter::next`. `loc.offset - self.last` is a `usize` subtraction. -/
def next (s : Iter) : Outcome (Option (Except Error Block) × Iter) :=
  match scan s.scanner with
  | .panic => .panic
  | .ret (.ok none, sc) => .ret (none, { s with scanner := sc })
  | .ret (.error e, sc) => .ret (some (.error e), { s with scanner := sc })
  | .ret (.ok (some loc), sc) =>
    if s.last ≠ 0 ∧ loc.offset < s.last then .panic
    else
      let last := if s.last = 0 then 0 else loc.offset - s.last
      match block sc with
      | (.ok data, sc) => .ret (some (.ok ⟨last, loc, data⟩), ⟨sc, loc.offset⟩)
      | (.error e, sc) => .ret (some (.error e), ⟨sc, loc.offset⟩)

end Sync
end Ccsds
