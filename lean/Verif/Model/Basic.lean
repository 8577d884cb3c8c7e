/-!
# Shared modelling vocabulary

Fixed-width integers, panics, overflow behaviour, library errors and iterators.
-/
namespace Ccsds

/-- Rust `u8`. -/
abbrev U8 := BitVec 8
/-- Rust `u16`. -/
abbrev U16 := BitVec 16
/-- Rust `u32`. -/
abbrev U32 := BitVec 32

/-- Result of running a piece of Rust code that may panic.  (Models the Rust runtime, no `/repo` line.) -/
inductive Outcome (α : Type) where
  | ret (a : α)
  | panic
  deriving DecidableEq, Repr

namespace Outcome

/-- Sequencing: a panic aborts the rest. -/
def bind {α β : Type} (x : Outcome α) (f : α → Outcome β) : Outcome β :=
  match x with
  | .ret a => f a
  | .panic => .panic

instance : Monad Outcome where
  pure := .ret
  bind := bind

@[simp] theorem pure_eq {α : Type} (a : α) : (pure a : Outcome α) = .ret a := rfl
@[simp] theorem ret_bind {α β : Type} (a : α) (f : α → Outcome β) : (Outcome.ret a >>= f) = f a := rfl
@[simp] theorem panic_bind {α β : Type} (f : α → Outcome β) : ((Outcome.panic : Outcome α) >>= f) = .panic := rfl

end Outcome

/-- Cargo build profile: whether integer overflow panics (`debug`, overflow checks on) or wraps (`release`).
The workspace (`Cargo.toml`) sets no `[profile]`, so both occur. -/
structure Build where
  overflowChecks : Bool
  deriving DecidableEq, Repr

namespace Build

/-- `+` on an `n`-bit unsigned integer. -/
def add {n : Nat} (b : Build) (x y : BitVec n) : Outcome (BitVec n) :=
  if b.overflowChecks && decide (2 ^ n ≤ x.toNat + y.toNat) then .panic else .ret (x + y)

/-- `-` on an `n`-bit unsigned integer. -/
def sub {n : Nat} (b : Build) (x y : BitVec n) : Outcome (BitVec n) :=
  if b.overflowChecks && decide (x.toNat < y.toNat) then .panic else .ret (x - y)

/-- `*` on an `n`-bit unsigned integer. -/
def mul {n : Nat} (b : Build) (x y : BitVec n) : Outcome (BitVec n) :=
  if b.overflowChecks && decide (2 ^ n ≤ x.toNat * y.toNat) then .panic else .ret (x * y)

end Build

/-- `std::io::ErrorKind`, as far as the code distinguishes kinds. -/
inductive IoKind where
  | unexpectedEof
  | interrupted
  | other (code : Nat)
  deriving DecidableEq, Repr

/-- ccsds-lib/src/error.rs:1-23 (`Error`, `TimecodeError`); message strings are dropped. -/
inductive Error where
  | notEnoughData (got wanted : Nat)
  | io (k : IoKind)
  | timecodeConfig
  | integrityAlgorithm
  deriving DecidableEq, Repr

deriving instance DecidableEq for Except

/-- Iterating a state machine `next` (a Rust `Iterator::next` with the iterator state explicit) from state `s`
until it returns `None` or panics, collecting the items: what a `for` loop over the iterator sees.
`Collects next s items (some s')` : the items come out in this order, then `next` returns `None` and leaves state `s'`.
`Collects next s items none` : the items come out in this order, then `next` panics. -/
inductive Collects {S α : Type} (next : S → Outcome (Option α × S)) : S → List α → Option S → Prop where
  | done {s s' : S} : next s = .ret (none, s') → Collects next s [] (some s')
  | panicked {s : S} : next s = .panic → Collects next s [] none
  | step {s s' : S} {a : α} {as : List α} {e : Option S} :
      next s = .ret (some a, s') → Collects next s' as e → Collects next s (a :: as) e

/-- The beginning of such a run: calling `next` once per item on `s` yields `items`, and leaves state `t`. -/
inductive Takes {S α : Type} (next : S → Outcome (Option α × S)) : S → List α → S → Prop where
  | nil {s : S} : Takes next s [] s
  | cons {s s' t : S} {a : α} {as : List α} : next s = .ret (some a, s') → Takes next s' as t → Takes next s (a :: as) t

/-- A run has at most one outcome. -/
theorem Collects.unique {S α : Type} {next : S → Outcome (Option α × S)} {s : S} {as bs : List α} {e f : Option S}
    (h : Collects next s as e) (k : Collects next s bs f) : as = bs ∧ e = f := by
  induction h generalizing bs f with
  | done h =>
    cases k with
    | done k => simp_all
    | panicked k => simp_all
    | step k _ => simp_all
  | panicked h =>
    cases k with
    | done k => simp_all
    | panicked k => simp_all
    | step k _ => simp_all
  | step h _ ih =>
    cases k with
    | done k => simp_all
    | panicked k => simp_all
    | step k k' =>
      rw [h] at k
      injection k with k
      injection k with k1 k2
      injection k1 with k1
      subst k1 k2
      have := ih k'
      simp_all

/-- `Iterator::filter_map(Result::ok)` on the items collected so far. -/
def oks {ε α : Type} (l : List (Except ε α)) : List α :=
  l.filterMap fun r => match r with | .ok a => some a | .error _ => none

end Ccsds
