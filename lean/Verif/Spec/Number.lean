import Verif.Model.Text

/-! # Numbers in a text, as Python's reference manual describes them -/

namespace CBus.Spec

/-- A sequence of digits, in which single underscores may stand between two digits,
and its value. `digit` gives the value of a digit. -/
inductive Digits (digit : Char → Option Nat) (base : Nat) : Str → Nat → Prop
  | one {c : Char} {d : Nat} : digit c = some d → Digits digit base [c] d
  | more {s : Str} {n : Nat} {c : Char} {d : Nat} :
      Digits digit base s n → digit c = some d → Digits digit base (s ++ [c]) (base * n + d)
  | under {s : Str} {n : Nat} {c : Char} {d : Nat} :
      Digits digit base s n → digit c = some d → Digits digit base (s ++ ['_', c]) (base * n + d)

/-- An optional sign in front of a number. -/
inductive Signed (body : Str → Nat → Prop) : Str → Int → Prop
  | plain {s : Str} {n : Nat} : body s n → Signed body s n
  | plus {s : Str} {n : Nat} : body s n → Signed body ('+' :: s) n
  | minus {s : Str} {n : Nat} : body s n → Signed body ('-' :: s) (-(n : Int))

/-- `t` is `s` without the characters in front and at the end that satisfy `blank`. -/
def Trimmed (blank : Char → Prop) (s t : Str) : Prop :=
  ∃ a b, s = a ++ t ++ b ∧ (∀ c ∈ a, blank c) ∧ (∀ c ∈ b, blank c) ∧
    (∀ c, t.head? = some c → ¬ blank c) ∧ (∀ c, t.getLast? = some c → ¬ blank c)

/-- The white space that a number may be surrounded by: in ASCII, the tabulators, the
line ends, the form feed and the space. -/
def NumberBlank (u : UniTable) (c : Char) : Prop :=
  c.toNat ∈ [9, 10, 11, 12, 13, 32] ∨ 128 ≤ c.toNat ∧ u.isSpace c = true

/-- The white space of `str.strip`, which are also the four separators. -/
def TextBlank (u : UniTable) (c : Char) : Prop :=
  c.toNat ∈ [9, 10, 11, 12, 13, 28, 29, 30, 31, 32] ∨ 128 ≤ c.toNat ∧ u.isSpace c = true

/-- The value of a letter as a hexadecimal digit. -/
def hexLetter (c : Char) : Option Nat :=
  (("abcdef".toList.idxOf? c).or ("ABCDEF".toList.idxOf? c)).map (10 + ·)

/-- A hexadecimal digit: a decimal digit of some script or a letter of ASCII. -/
def hexValue (u : UniTable) (c : Char) : Option Nat := (u.decimal c).or (hexLetter c)

/-- Hexadecimal digits with an optional `0x`, which may be followed by an
underscore. -/
def HexBody (u : UniTable) (s : Str) (n : Nat) : Prop :=
  Digits (hexValue u) 16 s n ∨
  ∃ z x r, u.decimal z = some 0 ∧ x ∈ ['x', 'X'] ∧ (s = z :: x :: r ∨ s = z :: x :: '_' :: r) ∧
    Digits (hexValue u) 16 r n

/-- A text that is the decimal number `i`. -/
def DecimalText (u : UniTable) (s : Str) (i : Int) : Prop :=
  ∃ t, Trimmed (NumberBlank u) s t ∧ Signed (Digits u.decimal 10) t i

/-- A text that is the hexadecimal number `i`. -/
def HexText (u : UniTable) (s : Str) (i : Int) : Prop :=
  ∃ t, Trimmed (NumberBlank u) s t ∧ Signed (HexBody u) t i

end CBus.Spec
