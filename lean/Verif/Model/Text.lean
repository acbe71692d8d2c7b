import Verif.Model.Py

/-! # Python strings

A `str` is a list of characters. (Python also has lone surrogates, which cannot
occur in decoded UTF-8 and are not modelled.) -/

namespace CBus

abbrev Str := List Char

/-- The white space of ASCII according to `str.isspace`. -/
def asciiSpace (n : Nat) : Bool := (9 ≤ n && n ≤ 13) || (28 ≤ n && n ≤ 32)

/-- Upper case in ASCII. -/
def asciiUpper (c : Char) : Char := if 97 ≤ c.toNat ∧ c.toNat ≤ 122 then Char.ofNat (c.toNat - 32) else c

/-- What Python knows about characters. It depends on the version of Unicode, so
the theorems hold for every table that is right about ASCII:
`unicodedata.decimal`, `str.isspace` and `str.upper` of one character. -/
structure UniTable where
  decimal : Char → Option Nat
  isSpace : Char → Bool
  upper : Char → Str
  ascii_decimal : ∀ c : Char, c.toNat < 128 →
    decimal c = if 48 ≤ c.toNat ∧ c.toNat ≤ 57 then some (c.toNat - 48) else none
  decimal_lt : ∀ c n, decimal c = some n → n < 10
  ascii_space : ∀ c : Char, c.toNat < 128 → isSpace c = asciiSpace c.toNat
  ascii_upper : ∀ c : Char, c.toNat < 128 → upper c = [asciiUpper c]

/-- The table of a Python that knows only ASCII. -/
def UniTable.ascii : UniTable where
  decimal c := if 48 ≤ c.toNat ∧ c.toNat ≤ 57 then some (c.toNat - 48) else none
  isSpace c := asciiSpace c.toNat
  upper c := [asciiUpper c]
  ascii_decimal _ _ := rfl
  decimal_lt c n h := by split at h <;> simp at h; omega
  ascii_space _ _ := rfl
  ascii_upper _ _ := rfl

/-- A decimal digit. -/
def digitChar (n : Nat) : Char := Char.ofNat (48 + n)

/-- The digits of a number, with enough fuel. -/
def natStrAux : Nat → Nat → Str
  | 0, _ => []
  | f + 1, n => if n < 10 then [digitChar n] else natStrAux f (n / 10) ++ [digitChar (n % 10)]

/-- `str(n)`. -/
def natStr (n : Nat) : Str := natStrAux (n + 1) n

/-- `str(i)`. -/
def intStr (i : Int) : Str := if i < 0 then '-' :: natStr i.natAbs else natStr i.natAbs

/-- `f'{i:03d}'`: at least three characters, padded with zeros after the sign. -/
def pad3 (i : Int) : Str :=
  if i < 0 then '-' :: List.replicate (2 - (natStr i.natAbs).length) '0' ++ natStr i.natAbs
  else List.replicate (3 - (natStr i.natAbs).length) '0' ++ natStr i.natAbs

/-- `str.startswith`. -/
def Str.startsWith (s p : Str) : Bool := p.isPrefixOf s
/-- `str.endswith`. -/
def Str.endsWith (s p : Str) : Bool := p.isSuffixOf s

namespace UniTable
variable (u : UniTable)

/-- `str.upper`. -/
def upperStr (s : Str) : Str := s.flatMap u.upper

/-- `str.strip`. -/
def strip (s : Str) : Str := ((s.dropWhile u.isSpace).reverse.dropWhile u.isSpace).reverse

/-- The white space that `int(s)` skips: unlike `str.isspace`, not the ASCII
separators 28..31. -/
def intSpace (c : Char) : Bool :=
  if c.toNat < 128 then (9 ≤ c.toNat && c.toNat ≤ 13) || c.toNat == 32 else u.isSpace c

/-- The digits of `int(s)`: single underscores between digits are allowed. `prev`
says whether the previous character was a digit. -/
def digits : Bool → Nat → Str → Option Nat
  | prev, acc, [] => if prev then some acc else none
  | prev, acc, c :: r =>
    if c = '_' then if prev then digits false acc r else none
    else match u.decimal c with
      | some d => digits true (10 * acc + d) r
      | none => none

/-- The sign and the digits of `int(s)`. -/
def signed : Str → Option Int
  | [] => none
  | c :: t =>
    if c = '-' then (u.digits false 0 t).map fun n : Nat => -Int.ofNat n
    else if c = '+' then (u.digits false 0 t).map Int.ofNat
    else (u.digits false 0 (c :: t)).map Int.ofNat

/-- `int(s)`. (Newer versions of Python also refuse more than 4300 digits.) -/
def intOf (s : Str) : Py Int :=
  match u.signed ((s.dropWhile u.intSpace).reverse.dropWhile u.intSpace).reverse with
  | some i => .ok i
  | none => .error .valueError

end UniTable
end CBus
