import Verif.Model.Proto
/-!
# What pool filters mean

Stated on numeric values and by quantification over the filters, without
reference to the evaluation order or to bit-pattern tricks of the code model.
-/
namespace OM.Spec

/-- The numeric value of a non-NaN binary64.  Every finite binary64 is an integer
multiple of `2^-1074`; `fin n` stands for `n * 2^-1074`. -/
inductive Num where
  | negInf
  | fin (n : Int)
  | posInf
  deriving DecidableEq, Repr

/-- Numeric order, infinities included. -/
def Num.le : Num → Num → Prop
  | .negInf, _ => True
  | _, .posInf => True
  | .fin a, .fin b => a ≤ b
  | _, _ => False

/-- IEEE-754 binary64: sign, 11 exponent bits `e`, 52 fraction bits `f`.
`e = 0`: `± f * 2^-1074`; `0 < e < 2047`: `± (2^52 + f) * 2^(e-1) * 2^-1074`;
`e = 2047`: infinity if `f = 0`, otherwise not a number. -/
def num (x : F64) : Option Num :=
  let s : Bool := x.getLsbD 63
  let e : Nat := x.toNat / 2 ^ 52 % 2 ^ 11
  let f : Nat := x.toNat % 2 ^ 52
  if e = 2047 then
    if f = 0 then some (if s then .negInf else .posInf) else none
  else
    let m : Int := if e = 0 then f else (2 ^ 52 + f) * 2 ^ (e - 1)
    some (.fin (if s then -m else m))

/-- `x ≤ y` as numbers; false when either is not a number. -/
def numLe (x y : F64) : Prop := ∃ a b, num x = some a ∧ num y = some b ∧ a.le b

/-- `x < y` as numbers; false when either is not a number. -/
def numLt (x y : F64) : Prop := ∃ a b, num x = some a ∧ num y = some b ∧ a.le b ∧ a ≠ b

/-- The value lies in the filter's range, each bound included or excluded as the
enum says (messages.proto:93-108). -/
def InRange (bounds : Int) (lo hi v : F64) : Prop :=
  (if bounds = 1 ∨ bounds = 3 then numLt lo v else numLe lo v) ∧
  (if bounds = 2 ∨ bounds = 3 then numLt v hi else numLe v hi)

/-- The four enum values messages.proto defines. -/
def KnownBounds (b : Int) : Prop := b = 0 ∨ b = 1 ∨ b = 2 ∨ b = 3

/-- Every double-range, string-equals and tag-present filter is satisfied.
`(k, v) ∈ args` is membership in the ticket's argument map. -/
def Meets (p : Pool) (a : FilterableData) : Prop :=
  (∀ f ∈ p.doubleRangeFilters, ∃ v, (f.doubleArg, v) ∈ a.doubleArgs ∧
      (KnownBounds f.bounds → InRange f.bounds f.minimum f.maximum v)) ∧
  (∀ f ∈ p.stringEqualsFilters, (f.stringArg, f.value) ∈ a.stringArgs) ∧
  (∀ f ∈ p.tagPresentFilters, f.tag ∈ a.tags)

/-- All the ticket's argument maps are maps: no key twice. -/
def WFAttrs (a : FilterableData) : Prop :=
  (a.doubleArgs.map Prod.fst).Nodup ∧ (a.stringArgs.map Prod.fst).Nodup

/-- The instant a timestamp denotes, in nanoseconds since the unix epoch. -/
def instant (t : Timestamp) : Int := t.seconds * 1000000000 + t.nanos

/-- The documented meaning of a creation-time filter with both ends present. -/
def CreatedWithin (bounds : Int) (start stop created : Timestamp) : Prop :=
  (if bounds = 1 ∨ bounds = 3 then instant start < instant created
    else instant start ≤ instant created) ∧
  (if bounds = 2 ∨ bounds = 3 then instant created < instant stop
    else instant created ≤ instant stop)

/-- A legal protobuf timestamp: years 1 to 9999, nanoseconds in `[0, 10^9)`. -/
def Legal (t : Timestamp) : Prop :=
  -62135596800 ≤ t.seconds ∧ t.seconds < 253402300800 ∧ 0 ≤ t.nanos ∧ t.nanos < 1000000000

end OM.Spec
