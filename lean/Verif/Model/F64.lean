import Verif.Model.Go
/-!
# float64 comparison

Go's `float64` comparison operators as the hardware performs them on the IEEE-754
binary64 bit pattern: a NaN (all exponent bits set and a non-zero fraction)
compares false with everything; otherwise patterns are ordered as
sign-and-magnitude integers, the two zeros being equal.
-/
namespace OM

/-- A Go `float64`, by its bit pattern (`math.Float64bits`). -/
abbrev F64 := BitVec 64

namespace F64

/-- Exponent and fraction bits. -/
def mag (x : F64) : Nat := x.toNat % 2 ^ 63
/-- Sign bit. -/
def neg (x : F64) : Bool := decide (2 ^ 63 ≤ x.toNat)
/-- `math.IsNaN`. -/
def isNaN (x : F64) : Bool := decide (0x7FF0000000000000 < mag x)
/-- Sign-and-magnitude integer. -/
def key (x : F64) : Int := if neg x then -(mag x : Int) else (mag x : Int)

/-- Go `x <= y` on float64. -/
def le (x y : F64) : Bool := !isNaN x && !isNaN y && decide (key x ≤ key y)
/-- Go `x < y` on float64. -/
def lt (x y : F64) : Bool := !isNaN x && !isNaN y && decide (key x < key y)
/-- Go `x >= y` on float64. -/
def ge (x y : F64) : Bool := le y x
/-- Go `x > y` on float64. -/
def gt (x y : F64) : Bool := lt y x

end F64
end OM
