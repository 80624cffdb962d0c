import Verif.Model.Proto
/-!
# Decimal numbers, addresses and labels
-/
namespace OM.Spec

/-- Decimal digits, leading zeros allowed. -/
def Decimals (s : Str) : Prop := s ≠ [] ∧ ∀ c ∈ s, '0' ≤ c ∧ c ≤ '9'

/-- The number that decimal digits stand for, the last digit first. -/
def revValue : Str → Nat
  | [] => 0
  | c :: s => (c.toNat - 48) + 10 * revValue s

/-- The number that decimal digits stand for. -/
def digitsValue (s : Str) : Nat := revValue s.reverse

/-- Decimal digits with an optional sign. -/
inductive DecInt : Str → Int → Prop
  | plain {s} : Decimals s → DecInt s (digitsValue s)
  | plus {s} : Decimals s → DecInt ('+' :: s) (digitsValue s)
  | minus {s} : Decimals s → DecInt ('-' :: s) (-(digitsValue s : Int))

/-- `a` is the address "`host`:`port`". -/
def HostPort (a host : Str) (port : Int) : Prop :=
  ∃ ds, a = host ++ ':' :: ds ∧ Decimals ds ∧ ds.head? ≠ some '0' ∧ digitsValue ds = port

/-- A varint: seven bits per byte, the least significant first, the last byte below 128. -/
inductive Varint : Str → Nat → Prop
  | last {c : Char} : c.toNat < 128 → Varint [c] c.toNat
  | more {c : Char} {s n} : 128 ≤ c.toNat → Varint s n → Varint (c :: s) (c.toNat - 128 + 128 * n)

/-- The bytes of an integer field with tag byte `tag`; zero is left out. -/
def IntBytes (tag : Nat) (v : Int) (b : Str) : Prop :=
  (v = 0 ∧ b = []) ∨ (v ≠ 0 ∧ ∃ c ds n, b = c :: ds ∧ c.toNat = tag ∧ Varint ds n ∧ (n : Int) = v % 2 ^ 64)

/-- The bytes of a string field with tag byte `tag`; the empty string is left out. -/
def StrBytes (tag : Nat) (s b : Str) : Prop :=
  (s = [] ∧ b = []) ∨ (s ≠ [] ∧ ∃ c l, b = c :: (l ++ s) ∧ c.toNat = tag ∧ Varint l s.length)

/-- `a` wraps the string `s`. -/
def HoldsString (a : AnyPb) (s : Str) : Prop :=
  a.typeUrl = "type.googleapis.com/google.protobuf.StringValue".toList ∧ StrBytes 10 s a.value

/-- `a` wraps the number `v`. -/
def HoldsInt32 (a : AnyPb) (v : Int) : Prop :=
  a.typeUrl = "type.googleapis.com/google.protobuf.Int32Value".toList ∧ IntBytes 8 v a.value

/-- `a` wraps the time `t`. -/
def HoldsTime (a : AnyPb) (t : Timestamp) : Prop :=
  a.typeUrl = "type.googleapis.com/google.protobuf.Timestamp".toList ∧
    ∃ b1 b2, a.value = b1 ++ b2 ∧ IntBytes 8 t.seconds b1 ∧ IntBytes 16 t.nanos b2

/-- The extension `k` is present and satisfies `P`. -/
def Labelled (ext : GoMap AnyPb) (k : String) (P : AnyPb → Prop) : Prop :=
  ∃ a, ext.load k.toList = some a ∧ P a

/-! ## Dates -/

/-- The days before a year of the Gregorian calendar, counted from the year 1. -/
def daysBeforeYear (y : Nat) : Nat := 365 * (y - 1) + (y - 1) / 4 - (y - 1) / 100 + (y - 1) / 400
def Leap (y : Nat) : Prop := y % 4 = 0 ∧ (y % 100 ≠ 0 ∨ y % 400 = 0)
instance (y : Nat) : Decidable (Leap y) := by unfold Leap; infer_instance
/-- The lengths of the months of a year. -/
def monthLengths (y : Nat) : List Nat := [31, if Leap y then 29 else 28, 31, 30, 31, 30, 31, 31, 30, 31, 30, 31]
/-- The days up to a date, with 0001-01-01 as day 1. -/
def dayNumber (y m d : Nat) : Nat := daysBeforeYear y + ((monthLengths y).take (m - 1)).sum + d

/-- A decimal number of fixed width. -/
def FixedDigits (w n : Nat) (s : Str) : Prop := s.length = w ∧ Decimals s ∧ digitsValue s = n

/-- `s` is "YYYY-MM-DDThh:mm:ss.cc" for a date of the calendar and a time of the day, `c`
hundredths of a second after the beginning of 1970. -/
def IsClock (c : Nat) (s : Str) : Prop :=
  ∃ y m d hh mm ss cc sy sm sd sh si st sc l, FixedDigits 4 y sy ∧ FixedDigits 2 m sm ∧ FixedDigits 2 d sd ∧ FixedDigits 2 hh sh ∧
    FixedDigits 2 mm si ∧ FixedDigits 2 ss st ∧ FixedDigits 2 cc sc ∧
    s = sy ++ '-' :: sm ++ '-' :: sd ++ 'T' :: sh ++ ':' :: si ++ ':' :: st ++ '.' :: sc ∧
    1 ≤ m ∧ (monthLengths y)[m - 1]? = some l ∧ 1 ≤ d ∧ d ≤ l ∧ hh < 24 ∧ mm < 60 ∧ ss < 60 ∧ cc < 100 ∧
    c + dayNumber 1970 1 1 * 8640000 = (((dayNumber y m d * 24 + hh) * 60 + mm) * 60 + ss) * 100 + cc

end OM.Spec
