import Verif.Model.Go
/-!
# Integer literals

The syntax of Go's integer literals with an optional sign, from the language
specification: what `strconv.ParseInt(s, 0, 64)` documents to accept.
-/
namespace OM.Spec

/-- `c` is a digit of base `b` and stands for `d`; letters of either case. -/
def Digit (b : Nat) (c : Char) (d : Nat) : Prop :=
  d < b ∧ ("0123456789abcdef".toList[d]? = some c ∨ "0123456789ABCDEF".toList[d]? = some c)

instance (b : Nat) (c : Char) (d : Nat) : Decidable (Digit b c d) := inferInstanceAs (Decidable (_ ∧ _))

/-- Digits of base `b`, possibly with single underscores between them. -/
inductive Numeral (b : Nat) : Str → Nat → Prop
  | one {c d} : Digit b c d → Numeral b [c] d
  | snoc {s n c d} : Numeral b s n → Digit b c d → Numeral b (s ++ [c]) (n * b + d)
  | under {s n c d} : Numeral b s n → Digit b c d → Numeral b (s ++ ['_', c]) (n * b + d)

/-- A literal without sign: decimal without leading zeros; octal with a leading zero (this
includes "0"); or a prefix, possibly an underscore, and digits of the base of the prefix. -/
inductive UintLit : Str → Nat → Prop
  | dec {c s n} : Numeral 10 (c :: s) n → c ≠ '0' → UintLit (c :: s) n
  | oct {s n} : Numeral 8 ('0' :: s) n → UintLit ('0' :: s) n
  | pre {p b s n} : (p, b) ∈ [('b', 2), ('B', 2), ('o', 8), ('O', 8), ('x', 16), ('X', 16)] → Numeral b s n →
      UintLit ('0' :: p :: s) n
  | pre_ {p b s n} : (p, b) ∈ [('b', 2), ('B', 2), ('o', 8), ('O', 8), ('x', 16), ('X', 16)] → Numeral b s n →
      UintLit ('0' :: p :: '_' :: s) n

/-- A literal with an optional sign. -/
inductive IntLit : Str → Int → Prop
  | plain {s n} : UintLit s n → IntLit s n
  | plus {s n} : UintLit s n → IntLit ('+' :: s) n
  | minus {s n} : UintLit s n → IntLit ('-' :: s) (-n)

/-- `v` is `w` followed by a decimal point and zeros.  (Dots after the zeros are ignored as
well, an oddity of the library.) -/
def ZeroDecimal (v w : Str) : Prop := ∃ k j, 0 < k ∧ v = w ++ '.' :: (List.replicate k '0' ++ List.replicate j '.')

/-- `v` denotes the integer `n`: a literal, or one with a zero decimal part. -/
def Denotes (v : Str) (n : Int) : Prop := IntLit v n ∨ ∃ w, ZeroDecimal v w ∧ IntLit w n

/-- The id has the number `v` before its first dash. -/
def IdNumber (id : Str) (v : Int) : Prop := ∃ a r, id = a ++ r ∧ '-' ∉ a ∧ (r = [] ∨ r.head? = some '-') ∧ IntLit a v

/-- The time written in an id, in seconds since 1970.  Go's `Time` counts from the year 1 in an
int64, so the largest numbers are no times. -/
def IdTime (id : Str) (v : Int) : Prop := IdNumber id v ∧ v + 62135596800 < 2 ^ 63

end OM.Spec
