import Verif.Spec.Serve
/-!
# Durations as text

The documentation of `time.ParseDuration`: "A duration string is a possibly signed sequence of decimal
numbers, each with optional fraction and a unit suffix, such as "300ms", "-1.5h" or "2h45m". Valid time units
are "ns", "us" (or "µs"), "ms", "s", "m", "h"."
-/
namespace OM.Spec

/-- The units and their nanoseconds. -/
def durUnits : List (Str × Nat) :=
  [ (['n', 's'], 1), (['u', 's'], 1000), ([Char.ofNat 0xB5, 's'], 1000), ([Char.ofNat 0x3BC, 's'], 1000),
    (['m', 's'], 1000000), (['s'], 1000000000), (['m'], 60000000000), (['h'], 3600000000000) ]

/-- Some digits, or none. -/
def DigitRun (s : Str) : Prop := ∀ c ∈ s, '0' ≤ c ∧ c ≤ '9'

/-- A sequence of numbers with units, and its nanoseconds.  `fr f k u`: the nanoseconds of the fraction
`f / 10^k` of a unit of `u` nanoseconds (rounded, floating point).  Fractions of more than 18 digits are left
out. -/
inductive DurText (fr : Nat → Nat → Nat → Nat) : Str → Nat → Prop
  | nil : DurText fr [] 0
  | whole {ds u rest n t} : ds ≠ [] → DigitRun ds → (u, n) ∈ durUnits → DurText fr rest t →
      DurText fr (ds ++ (u ++ rest)) (digitsValue ds * n + t)
  | point {ds fs u rest n t} : ds ≠ [] ∨ fs ≠ [] → DigitRun ds → DigitRun fs → fs.length ≤ 18 → (u, n) ∈ durUnits →
      DurText fr rest t →
      DurText fr (ds ++ '.' :: (fs ++ (u ++ rest)))
        (digitsValue ds * n + (if digitsValue fs = 0 then 0 else fr (digitsValue fs) fs.length n) + t)

/-- A duration in the range of an int64, and its nanoseconds. -/
inductive DurationOf (fr : Nat → Nat → Nat → Nat) : Str → Int → Prop
  | zero : DurationOf fr ['0'] 0
  | plusZero : DurationOf fr ['+', '0'] 0
  | minusZero : DurationOf fr ['-', '0'] 0
  | plain {s t} : s ≠ [] → DurText fr s t → t < 2 ^ 63 → DurationOf fr s t
  | plus {s t} : s ≠ [] → DurText fr s t → t < 2 ^ 63 → DurationOf fr ('+' :: s) t
  | minus {s t} : s ≠ [] → DurText fr s t → t ≤ 2 ^ 63 → DurationOf fr ('-' :: s) (-(t : Int))

/-- A sequence of numbers with units, whatever its size. -/
inductive DurSyntax : Str → Prop
  | nil : DurSyntax []
  | whole {ds u rest n} : ds ≠ [] → DigitRun ds → (u, n) ∈ durUnits → DurSyntax rest → DurSyntax (ds ++ (u ++ rest))
  | point {ds fs u rest n} : ds ≠ [] ∨ fs ≠ [] → DigitRun ds → DigitRun fs → (u, n) ∈ durUnits → DurSyntax rest →
      DurSyntax (ds ++ '.' :: (fs ++ (u ++ rest)))

/-- The text of a duration: "0" or a sequence of numbers with units, possibly signed. -/
def IsDuration (s : Str) : Prop :=
  ∃ r, (s = r ∨ s = '+' :: r ∨ s = '-' :: r) ∧ (r = ['0'] ∨ (r ≠ [] ∧ DurSyntax r))

end OM.Spec
