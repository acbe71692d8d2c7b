import Verif.Model.JsonText

/-! # JSON as RFC 8259 defines it

With the extensions that Python's manual lists: `NaN`, `Infinity` and `-Infinity` are
numbers, of members with the same name the last one counts, and escapes may be lone
surrogates. -/

namespace CBus.Spec.Json
open CBus CBus.Json

/-- White space. -/
def Blank (s : Str) : Prop := ∀ c ∈ s, c = ' ' ∨ c = '\t' ∨ c = '\n' ∨ c = '\r'

/-- `c` is the hexadecimal digit of value `x`. -/
def HexDigit (c : Char) (x : Nat) : Prop :=
  "0123456789abcdef".toList[x]? = some c ∨ "0123456789ABCDEF".toList[x]? = some c

/-- Four hexadecimal digits and their value. -/
def Hex4 (t : Str) (n : Nat) : Prop :=
  ∃ a b c d w x y z, t = [a, b, c, d] ∧ HexDigit a w ∧ HexDigit b x ∧ HexDigit c y ∧ HexDigit d z ∧
    n = ((w * 16 + x) * 16 + y) * 16 + z

/-- The escapes of one character: what is written behind the backslash, and its code. -/
def escapes : List (Char × Nat) :=
  [('"', 34), ('\\', 92), ('/', 47), ('b', 8), ('f', 12), ('n', 10), ('r', 13), ('t', 9)]

/-- The text between the quotation marks and the string that it stands for. -/
inductive StringText (env : JEnv) : Str → Str → Prop
  | nil : StringText env [] []
  | plain (c : Char) (t s : Str) (h : 32 ≤ c.toNat) (hq : c ≠ '"') (hb : c ≠ '\\') (ht : StringText env t s) :
      StringText env (c :: t) (c :: s)
  | escape (e c : Char) (t s : Str) (h : (e, c.toNat) ∈ escapes) (ht : StringText env t s) :
      StringText env ('\\' :: e :: t) (c :: s)
  | unicode (x : Str) (c : Char) (t s : Str) (h : Hex4 x c.toNat) (ht : StringText env t s) :
      StringText env ('\\' :: 'u' :: (x ++ t)) (c :: s)
  | pair (x y : Str) (c : Char) (t s : Str) (h : 0x10000 ≤ c.toNat)
      (hx : Hex4 x (0xd800 + (c.toNat - 0x10000) / 0x400)) (hy : Hex4 y (0xdc00 + (c.toNat - 0x10000) % 0x400))
      (ht : StringText env t s) : StringText env ('\\' :: 'u' :: (x ++ '\\' :: 'u' :: (y ++ t))) (c :: s)
  | lone (x : Str) (n : Nat) (t s : Str) (hx : Hex4 x n) (h : 0xd800 ≤ n ∧ n ≤ 0xdfff)
      (hn : n < 0xdc00 → ¬ ∃ y m r, t = '\\' :: 'u' :: (y ++ r) ∧ Hex4 y m ∧ 0xdc00 ≤ m ∧ m ≤ 0xdfff)
      (ht : StringText env t s) : StringText env ('\\' :: 'u' :: (x ++ t)) (env.lone n :: s)

/-- Decimal digits, at least one. -/
def Digits (t : Str) : Prop := t ≠ [] ∧ ∀ c ∈ t, '0'.toNat ≤ c.toNat ∧ c.toNat ≤ '9'.toNat

/-- A fraction, or nothing. -/
def Fraction (t : Str) : Prop := t = [] ∨ ∃ d, t = '.' :: d ∧ Digits d

/-- An exponent, or nothing. -/
def Exponent (t : Str) : Prop :=
  t = [] ∨ ∃ e sign d, t = e :: (sign ++ d) ∧ (e = 'e' ∨ e = 'E') ∧ (sign = [] ∨ sign = ['+'] ∨ sign = ['-']) ∧ Digits d

/-- A number: an integer if it has neither fraction nor exponent, and otherwise what
`float` makes of it. There are no leading zeros. -/
inductive NumberText (env : JEnv) : Str → PyNum → Prop
  | nat (n : Nat) : NumberText env (toString n).toList (.int n)
  | neg (n : Nat) : NumberText env ('-' :: (toString n).toList) (.int (-n))
  | real (sign : Str) (n : Nat) (f e : Str) (hs : sign = [] ∨ sign = ['-']) (hf : Fraction f) (he : Exponent e)
      (h : f ≠ [] ∨ e ≠ []) :
      NumberText env (sign ++ (toString n).toList ++ f ++ e)
        (env.floatOf (sign ++ (toString n).toList ++ f ++ e))

/-- A `dict` made from members, one after the other. -/
def dictOf (l : List (Str × JVal)) : List (Str × JVal) := l.foldl (fun d m => dictSet d m.1 m.2) []

/-- What a part of a JSON text stands for: a value, the items of an array or the members
of an object. -/
inductive Meaning
  | value (v : JVal)
  | items (l : List JVal)
  | members (l : List (Str × JVal))

/-- The grammar. -/
inductive Part (env : JEnv) : Str → Meaning → Prop
  | null : Part env "null".toList (.value .null)
  | true : Part env "true".toList (.value (.bool true))
  | false : Part env "false".toList (.value (.bool false))
  | nan : Part env "NaN".toList (.value (.num .nan))
  | infinity : Part env "Infinity".toList (.value (.num (.inf false)))
  | negInfinity : Part env "-Infinity".toList (.value (.num (.inf true)))
  | num (t : Str) (x : PyNum) (h : NumberText env t x) : Part env t (.value (.num x))
  | str (t s : Str) (h : StringText env t s) : Part env ('"' :: (t ++ ['"'])) (.value (.str s))
  | emptyArr (w : Str) (h : Blank w) : Part env ('[' :: (w ++ [']'])) (.value (.arr []))
  | arr (w t : Str) (l : List JVal) (hw : Blank w) (h : Part env t (.items l)) :
      Part env ('[' :: (w ++ (t ++ [']']))) (.value (.arr l))
  | emptyObj (w : Str) (h : Blank w) : Part env ('{' :: (w ++ ['}'])) (.value (.obj []))
  | obj (w t : Str) (l : List (Str × JVal)) (hw : Blank w) (h : Part env t (.members l)) :
      Part env ('{' :: (w ++ (t ++ ['}']))) (.value (.obj (dictOf l)))
  | item (t w : Str) (v : JVal) (h : Part env t (.value v)) (hw : Blank w) : Part env (t ++ w) (.items [v])
  | items (t w w' t' : Str) (v : JVal) (l : List JVal) (h : Part env t (.value v)) (hw : Blank w) (hw' : Blank w')
      (h' : Part env t' (.items l)) : Part env (t ++ (w ++ ',' :: (w' ++ t'))) (.items (v :: l))
  | member (k n w w' t w'' : Str) (v : JVal) (hk : StringText env k n) (hw : Blank w) (hw' : Blank w')
      (h : Part env t (.value v)) (hw'' : Blank w'') :
      Part env ('"' :: (k ++ '"' :: (w ++ ':' :: (w' ++ (t ++ w''))))) (.members [(n, v)])
  | members (k n w w' t w'' w₃ t' : Str) (v : JVal) (l : List (Str × JVal)) (hk : StringText env k n) (hw : Blank w)
      (hw' : Blank w') (h : Part env t (.value v)) (hw'' : Blank w'') (hw₃ : Blank w₃) (h' : Part env t' (.members l)) :
      Part env ('"' :: (k ++ '"' :: (w ++ ':' :: (w' ++ (t ++ (w'' ++ ',' :: (w₃ ++ t')))))))
        (.members ((n, v) :: l))

/-- A JSON text and its value. -/
def JsonText (env : JEnv) (s : Str) (v : JVal) : Prop :=
  ∃ w t w', s = w ++ (t ++ w') ∧ Blank w ∧ Blank w' ∧ Part env t (.value v)

/-- The bytes of a text in UTF-8. -/
def utf8 (s : Str) : Bytes := s.flatMap String.utf8EncodeChar

/-- Values that a text can say exactly: names are distinct, as they are in a `dict`, and
Python reads the text of a float as that float. -/
inductive Exact (env : JEnv) : JVal → Prop
  | null : Exact env .null
  | bool (b : Bool) : Exact env (.bool b)
  | int (i : Int) : Exact env (.num (.int i))
  | float (q : Rat) (h : NumberText env (env.floatRepr q) (.flt q)) : Exact env (.num (.flt q))
  | nan : Exact env (.num .nan)
  | inf (b : Bool) : Exact env (.num (.inf b))
  | str (s : Str) : Exact env (.str s)
  | arr (l : List JVal) (h : ∀ v ∈ l, Exact env v) : Exact env (.arr l)
  | obj (l : List (Str × JVal)) (hn : (l.map (·.1)).Nodup) (h : ∀ m ∈ l, Exact env m.2) : Exact env (.obj l)

end CBus.Spec.Json
