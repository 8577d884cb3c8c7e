import Verif.Spec.Bits
/-!
# Specification: CCSDS 301.0-B time codes

Instants are nanoseconds since 1900-01-01 00:00:00 of the time scale.
-/
namespace Ccsds.Spec

/-- Gregorian year length in days. -/
def yearDays (y : Nat) : Nat := if (y % 4 = 0 ∧ y % 100 ≠ 0) ∨ y % 400 = 0 then 366 else 365

/-- Days from 1900-01-01 to 1958-01-01. -/
def daysTo1958 : Nat := ((List.range' 1900 58).map yearDays).sum

/-- The instant `days` days, `ms` milliseconds, `us` microseconds after 1958-01-01 00:00:00. -/
def cdsInstant (days ms us : Nat) : Nat :=
  (daysTo1958 + days) * 86400 * 1000000000 + ms * 1000000 + us * 1000

/-- The instant `coarse` seconds and `ns` nanoseconds after 1958-01-01 00:00:00. -/
def cucInstant (coarse ns : Nat) : Nat := (daysTo1958 * 86400 + coarse) * 1000000000 + ns

end Ccsds.Spec
