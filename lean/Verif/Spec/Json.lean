import Verif.Spec.Text
import Verif.Spec.Serve
import Verif.Model.Json
/-!
# JSON texts

The grammar of RFC 8259, independently of the model's reader and writer: which bytes are a JSON
text and what value they hold.
-/
namespace OM.Spec

/-- White space between tokens. -/
def Ws (s : Str) : Prop := ∀ c ∈ s, c ∈ [' ', '\t', '\n', '\r']

def HexDigit (c : Char) (n : Nat) : Prop := "0123456789abcdef".toList[n]? = some c ∨ "0123456789ABCDEF".toList[n]? = some c

/-- Four hexadecimal digits. -/
def Hex4 (s : Str) (n : Nat) : Prop :=
  ∃ a b c d x y z w, s = [a, b, c, d] ∧ HexDigit a x ∧ HexDigit b y ∧ HexDigit c z ∧ HexDigit d w ∧ n = ((x * 16 + y) * 16 + z) * 16 + w

/-- The letters after a backslash, and the characters they stand for. -/
def shortEscapes : List (Char × Nat) :=
  [('"', 0x22), ('\\', 0x5C), ('/', 0x2F), ('b', 0x8), ('f', 0xC), ('n', 0xA), ('r', 0xD), ('t', 0x9)]

/-- `StrText t s`: `t` between quotation marks is the string `s`. -/
inductive StrText : Str → Str → Prop
  | nil : StrText [] []
  | plain {c : Char} {t s : Str} : c ≠ '"' → c ≠ '\\' → 0x20 ≤ c.toNat → StrText t s → StrText (c :: t) (c :: s)
  | short {e : Char} {n : Nat} {t s : Str} : (e, n) ∈ shortEscapes → StrText t s → StrText ('\\' :: e :: t) (Char.ofNat n :: s)
  | unicode {h t s : Str} {c : Char} : Hex4 h c.toNat → StrText t s → StrText ('\\' :: 'u' :: (h ++ t)) (charBytes c ++ s)
  | pair {h l t s : Str} {m n : Nat} {c : Char} : Hex4 h m → Hex4 l n → 0xD800 ≤ m → m < 0xDC00 → 0xDC00 ≤ n → n < 0xE000 →
      c.toNat = 0x10000 + (m - 0xD800) * 0x400 + (n - 0xDC00) → StrText t s →
      StrText ('\\' :: 'u' :: (h ++ '\\' :: 'u' :: (l ++ t))) (charBytes c ++ s)

/-- An exponent, or none. -/
def ExpText (e : Int) (t : Str) : Prop :=
  (t = [] ∧ e = 0) ∨ ∃ c sign ds, t = c :: (sign ++ ds) ∧ (c = 'e' ∨ c = 'E') ∧ Decimals ds ∧
    (((sign = [] ∨ sign = ['+']) ∧ e = digitsValue ds) ∨ (sign = ['-'] ∧ e = -(digitsValue ds : Int)))

/-- A number with the digits `i` before and `f` after the decimal point, and an exponent. -/
def NumText (neg : Bool) (i f : Str) (e : Int) (t : Str) : Prop :=
  ∃ fp ep, t = (if neg then ['-'] else []) ++ (i ++ (fp ++ ep)) ∧ Decimals i ∧ (i = ['0'] ∨ i.head? ≠ some '0') ∧
    ((fp = [] ∧ f = []) ∨ (fp = '.' :: f ∧ Decimals f)) ∧ ExpText e ep

def IsNumber (t : Str) : Prop := ∃ neg i f e, NumText neg i f e t

mutual
/-- `JText j t`: the text `t`, without space around it, is the value `j`. -/
inductive JText : Json → Str → Prop
  | null : JText .null "null".toList
  | true : JText (.bool true) "true".toList
  | false : JText (.bool false) "false".toList
  | num {t : Str} : IsNumber t → JText (.num t) t
  | str {t s : Str} : StrText t s → JText (.str s) ('"' :: (t ++ ['"']))
  | noElems {w : Str} : Ws w → JText (.arr []) ('[' :: (w ++ [']']))
  | arr {l : List Json} {t : Str} : JElems l t → JText (.arr l) ('[' :: (t ++ [']']))
  | noMembers {w : Str} : Ws w → JText (.obj []) ('{' :: (w ++ ['}']))
  | obj {l : List (Str × Json)} {t : Str} : JMembers l t → JText (.obj l) ('{' :: (t ++ ['}']))
/-- The elements of an array: at least one. -/
inductive JElems : List Json → Str → Prop
  | one {j : Json} {w t w' : Str} : Ws w → JText j t → Ws w' → JElems [j] (w ++ (t ++ w'))
  | cons {j : Json} {l : List Json} {w t w' r : Str} : Ws w → JText j t → Ws w' → JElems l r →
      JElems (j :: l) (w ++ (t ++ (w' ++ ',' :: r)))
/-- The members of an object: at least one. -/
inductive JMembers : List (Str × Json) → Str → Prop
  | one {k : Str} {j : Json} {w kt w1 w2 t w' : Str} : Ws w → StrText kt k → Ws w1 → Ws w2 → JText j t → Ws w' →
      JMembers [(k, j)] (w ++ '"' :: (kt ++ '"' :: (w1 ++ ':' :: (w2 ++ (t ++ w')))))
  | cons {k : Str} {j : Json} {l : List (Str × Json)} {w kt w1 w2 t w' r : Str} : Ws w → StrText kt k → Ws w1 → Ws w2 →
      JText j t → Ws w' → JMembers l r →
      JMembers ((k, j) :: l) (w ++ '"' :: (kt ++ '"' :: (w1 ++ ':' :: (w2 ++ (t ++ (w' ++ ',' :: r))))))
end

/-- A JSON document: a text (RFC 8259 demands UTF-8) with one value. -/
def JDoc (j : Json) (t : Str) : Prop := IsText t ∧ ∃ w v w', t = w ++ (v ++ w') ∧ Ws w ∧ JText j v ∧ Ws w'

mutual
/-- The strings of a value, the names of its members included. -/
def strings : Json → List Str
  | .str s => [s]
  | .arr l => elemStrings l
  | .obj l => memberStrings l
  | _ => []
def elemStrings : List Json → List Str
  | [] => []
  | j :: l => strings j ++ elemStrings l
def memberStrings : List (Str × Json) → List Str
  | [] => []
  | (k, j) :: l => k :: (strings j ++ memberStrings l)
end

/-- White space which is neither a control character nor one of the separators U+2028 and U+2029. -/
def Blank (s : Str) : Prop :=
  ∃ text : List Char, s = text.flatMap charBytes ∧ ∃ c ∈ text, White c ∧ 0x20 ≤ c.toNat ∧ c.toNat ≠ 0x2028 ∧ c.toNat ≠ 0x2029

end OM.Spec
