import Verif.Model.Filter
/-!
# `ccsds-cmd/src/main.rs`: number range arguments

Strings are lists of characters. `\d` of the `regex` crate matches every Unicode decimal digit: a parameter `ud`, true for the ASCII digits and
false for `-`. Memory exhaustion by huge ranges is not modelled.
-/
namespace Ccsds.Ranges

/-- `char::to_digit(10)` -/
def digit? (c : Char) : Option Nat := if '0' ≤ c ∧ c ≤ '9' then some (c.toNat - 48) else none

/-- `str::parse::<u32>` on a non-empty string without sign: the accumulated value, `none` on a non-digit or overflow. -/
def parseU32 : List Char → Nat → Option Nat
  | [], acc => some acc
  | c :: cs, acc =>
    match digit? c with
    | none => none
    | some d => if acc * 10 + d < 2 ^ 32 then parseU32 cs (acc * 10 + d) else none

/-- main.rs:277 the captures of `^(?:(\d+)|(\d+)-(\d+))$`: group 1, or groups 2 and 3. `\d+` is greedy, and a `-` is no digit, so the second
alternative splits at the end of the leading digits. -/
def captures (ud : Char → Bool) (s : List Char) : Option (List Char ⊕ List Char × List Char) :=
  if !s.isEmpty && s.all ud then some (.inl s)
  else
    match s.dropWhile ud with
    | '-' :: t => if !(s.takeWhile ud).isEmpty && !t.isEmpty && t.all ud then some (.inr (s.takeWhile ud, t)) else none
    | _ => none

/-- main.rs:279-304 one round of the loop: the values it appends, or `none` for `bail!`/`?`. (`cap.len()` is always 4.) -/
def item (ud : Char → Bool) (s : List Char) : Option (List Nat) :=
  match captures ud s with
  | none => none
  | some (.inl t) => (parseU32 t 0).map fun x => [x]
  | some (.inr (a, b)) =>
    match parseU32 a 0 with
    | none => none
    | some x =>
      match parseU32 b 0 with
      | none => none
      | some y => if x ≥ y then none else some (List.range' x (y + 1 - x))

/-- main.rs:276-307 `parse_number_ranges`; `none`: an error -/
def parse (ud : Char → Bool) : List (List Char) → Option (List Nat)
  | [] => some []
  | s :: l =>
    match item ud s with
    | none => none
    | some vs =>
      match parse ud l with
      | none => none
      | some ws => some (vs ++ ws)

/-- main.rs:397-404 (and 436-443) `.filter_map(|v| Apid::try_from(*v).ok())` -/
def toU16 (vs : List Nat) : List U16 := vs.filterMap fun v => if v < 2 ^ 16 then some (BitVec.ofNat 16 v) else none

/-- main.rs:381-412 `ccsds filter`, without opening the files: `none` stands for an error from the arguments. -/
def FilterCommand (b : Build) (τ : Epoch → Int) (ud : Char → Bool) (r : Reader) (incl excl : List (List Char)) (before after : Option Epoch) :
    Option Filter.FResult → Prop := fun res =>
  match parse ud incl, parse ud excl with
  | some i, some e => ∃ x, res = some x ∧ Filter.Runs b τ r (toU16 i) (toU16 e) before after x
  | _, _ => res = none

end Ccsds.Ranges
