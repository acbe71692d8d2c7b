import Verif.Model.Json

/-! # JSON texts

`json.loads` (cmqttd.py:145) and `json.dumps` with its default arguments
(cmqttd.py:175) of Python's standard library, as CPython has them (`json/__init__.py`,
`json/decoder.py`, `json/encoder.py`, `_json.c`). They are the only functions of the
library that are modelled, because everything that the daemon reads from the broker
or publishes goes through them.

Simplifications: any exception is `none` (cmqttd.py:144-148 catches all of them);
there is no limit to nesting (CPython raises `RecursionError` on very deep texts) nor
to the number of digits; a lone surrogate, which a `Char` cannot be, is an unknown
character. -/

namespace CBus.Json

/-- What is not modelled of Python's texts and numbers. -/
structure JEnv where
  /-- `float(text)` for a number with a fraction or an exponent. -/
  floatOf : Str → PyNum
  /-- `float.__repr__` of a finite number. -/
  floatRepr : Rat → Str
  /-- What stands for a lone surrogate. -/
  lone : Nat → Char
  /-- The text of bytes that are in another encoding than UTF-8. -/
  other : Bytes → Option Str

/-- `[ \t\n\r]`, decoder.py `WHITESPACE`. -/
def isWs (c : Char) : Bool := c == ' ' || c == '\t' || c == '\n' || c == '\r'

def skip (s : Str) : Str := s.dropWhile isWs

/-- The value of a hexadecimal digit. -/
def hexVal (c : Char) : Option Nat :=
  if 48 ≤ c.toNat ∧ c.toNat ≤ 57 then some (c.toNat - 48)
  else if 97 ≤ c.toNat ∧ c.toNat ≤ 102 then some (c.toNat - 87)
  else if 65 ≤ c.toNat ∧ c.toNat ≤ 70 then some (c.toNat - 55)
  else none

/-- Four hexadecimal digits, decoder.py `_decode_uXXXX`. -/
def hex4 : Str → Option (Nat × Str)
  | a :: b :: c :: d :: r =>
    match hexVal a, hexVal b, hexVal c, hexVal d with
    | some a, some b, some c, some d => some (4096 * a + 256 * b + 16 * c + d, r)
    | _, _, _, _ => none
  | _ => none

def isHigh (n : Nat) : Bool := 0xd800 ≤ n && n ≤ 0xdbff
def isLow (n : Nat) : Bool := 0xdc00 ≤ n && n ≤ 0xdfff

/-- What follows `\u`. Two escapes that are a pair of surrogates are one character. -/
def unicodeEscape (env : JEnv) (s : Str) : Option (Char × Str) :=
  match hex4 s with
  | none => none
  | some (n, r) =>
    if isHigh n then
      match r with
      | '\\' :: 'u' :: r₂ =>
        match hex4 r₂ with
        | none => none
        | some (m, r₃) =>
          if isLow m then some (Char.ofNat (0x10000 + 0x400 * (n - 0xd800) + (m - 0xdc00)), r₃)
          else some (env.lone n, r)
      | _ => some (env.lone n, r)
    else if isLow n then some (env.lone n, r)
    else some (Char.ofNat n, r)

/-- The escapes of one character, decoder.py `BACKSLASH`. -/
def simpleEscape (c : Char) : Option Char :=
  if c = '"' then some '"' else if c = '\\' then some '\\' else if c = '/' then some '/'
  else if c = 'b' then some (Char.ofNat 8) else if c = 'f' then some (Char.ofNat 12)
  else if c = 'n' then some '\n' else if c = 'r' then some '\r' else if c = 't' then some '\t'
  else none

/-- One character of a string, which is not its end. -/
def stringChar (env : JEnv) : Str → Option (Char × Str)
  | [] => none
  | c :: r =>
    if c = '\\' then
      match r with
      | [] => none
      | e :: r => if e = 'u' then unicodeEscape env r else (simpleEscape e).map fun x => (x, r)
    else if c.toNat < 32 then none
    else some (c, r)

/-- decoder.py `py_scanstring`, `_json.c` `scanstring_unicode`: from behind the opening
quotation mark to behind the closing one. The first argument only ensures termination. -/
def scanString (env : JEnv) : Nat → Str → Option (Str × Str)
  | 0, _ => none
  | f + 1, s =>
    if s.head? = some '"' then some ([], s.drop 1)
    else
      match stringChar env s with
      | none => none
      | some (c, r) =>
        match scanString env f r with
        | none => none
        | some (t, r) => some (c :: t, r)

def isDigit (c : Char) : Bool := 48 ≤ c.toNat && c.toNat ≤ 57

def digitsValue (s : Str) : Nat := s.foldl (fun n c => 10 * n + (c.toNat - 48)) 0

/-- `-?(0|[1-9][0-9]*)`: sign, digits and the rest. -/
def scanInt (s : Str) : Option (Bool × Str × Str) :=
  let neg := s.head? = some '-'
  let r := if neg then s.drop 1 else s
  match r with
  | [] => none
  | c :: r =>
    if c = '0' then some (neg, ['0'], r)
    else if isDigit c then some (neg, c :: r.takeWhile isDigit, r.dropWhile isDigit)
    else none

/-- `(\.[0-9]+)?` -/
def scanFrac : Str → Str × Str
  | '.' :: r => if r.takeWhile isDigit = [] then ([], '.' :: r) else ('.' :: r.takeWhile isDigit, r.dropWhile isDigit)
  | s => ([], s)

/-- `([eE][-+]?[0-9]+)?` -/
def scanExp (s : Str) : Str × Str :=
  match s with
  | [] => ([], [])
  | e :: r =>
    if e = 'e' ∨ e = 'E' then
      let sign := if r.head? = some '+' ∨ r.head? = some '-' then r.take 1 else []
      let r' := r.drop sign.length
      if r'.takeWhile isDigit = [] then ([], s) else (e :: sign ++ r'.takeWhile isDigit, r'.dropWhile isDigit)
    else ([], s)

def signText (neg : Bool) : Str := if neg then ['-'] else []

/-- scanner.py `NUMBER_RE`, `_json.c` `_match_number_unicode`. -/
def scanNumber (env : JEnv) (s : Str) : Option (PyNum × Str) :=
  match scanInt s with
  | none => none
  | some (neg, ds, r) =>
    let f := scanFrac r
    let e := scanExp f.2
    if f.1 = [] ∧ e.1 = [] then
      some (.int (if neg then -(digitsValue ds : Int) else digitsValue ds), e.2)
    else some (env.floatOf (signText neg ++ ds ++ f.1 ++ e.1), e.2)

/-- The constants, scanner.py `_scan_once`. -/
def constants : List (Str × JVal) :=
  [("null".toList, .null), ("true".toList, .bool true), ("false".toList, .bool false),
   ("NaN".toList, .num .nan), ("Infinity".toList, .num (.inf false)), ("-Infinity".toList, .num (.inf true))]

/-- The constant at the beginning of a text. -/
def scanConstant (s : Str) : List (Str × JVal) → Option (JVal × Str)
  | [] => none
  | (p, v) :: cs => if p.isPrefixOf s then some (v, s.drop p.length) else scanConstant s cs

mutual
/-- scanner.py `_scan_once`, `_json.c` `scan_once_unicode`: the value at the beginning of
a text and the rest. The first argument only ensures termination. -/
def scan (env : JEnv) : Nat → Str → Option (JVal × Str)
  | 0, _ => none
  | f + 1, s =>
    match s with
    | [] => none
    | c :: r =>
      if c = '"' then (scanString env s.length r).map fun x => (.str x.1, x.2)
      else if c = '{' then
        if (skip r).head? = some '}' then some (.obj [], (skip r).drop 1) else scanMembers env f [] (skip r)
      else if c = '[' then
        if (skip r).head? = some ']' then some (.arr [], (skip r).drop 1)
        else (scanItems env f (skip r)).map fun x => (.arr x.1, x.2)
      else
        match scanConstant s constants with
        | some x => some x
        | none => (scanNumber env s).map fun x => (.num x.1, x.2)
/-- decoder.py `JSONObject`, from the first name; `d` is the `dict` so far. -/
def scanMembers (env : JEnv) : Nat → List (Str × JVal) → Str → Option (JVal × Str)
  | 0, _, _ => none
  | f + 1, d, s =>
    if s.head? ≠ some '"' then none
    else
      match scanString env s.length (s.drop 1) with
      | none => none
      | some (k, r) =>
        if (skip r).head? ≠ some ':' then none
        else
          match scan env f (skip ((skip r).drop 1)) with
          | none => none
          | some (v, r) =>
            if (skip r).head? = some '}' then some (.obj (dictSet d k v), (skip r).drop 1)
            else if (skip r).head? = some ',' then scanMembers env f (dictSet d k v) (skip ((skip r).drop 1))
            else none
/-- decoder.py `JSONArray`, from the first item. -/
def scanItems (env : JEnv) : Nat → Str → Option (List JVal × Str)
  | 0, _ => none
  | f + 1, s =>
    match scan env f s with
    | none => none
    | some (v, r) =>
      if (skip r).head? = some ']' then some ([v], (skip r).drop 1)
      else if (skip r).head? = some ',' then
        (scanItems env f (skip ((skip r).drop 1))).map fun x => (v :: x.1, x.2)
      else none
end

/-- `json.loads` of a text: decoder.py `JSONDecoder.decode`. -/
def loadsText (env : JEnv) (s : Str) : Option JVal :=
  match scan env (skip s).length (skip s) with
  | none => none
  | some (v, r) => if skip r = [] then some v else none

/-- `bytes.startswith`. -/
def bom (b : Bytes) : Bool :=
  [[0, 0, 0xfe, 0xff], [0xff, 0xfe, 0, 0], [0xfe, 0xff], [0xff, 0xfe], [0xef, 0xbb, 0xbf]].any fun p =>
    (p : Bytes).isPrefixOf b

/-- json/__init__.py `detect_encoding` says UTF-8. -/
def detectUtf8 (b : Bytes) : Bool :=
  !bom b &&
    (if 4 ≤ b.length then b.take 2 |>.all (· ≠ 0) else if b.length = 2 then b.all (· ≠ 0) else true)

/-- The text that bytes stand for in UTF-8. -/
def utf8Text (b : Bytes) : Option Str := (ByteArray.mk b.toArray).utf8Decode?.map Array.toList

/-- `json.loads` of bytes. -/
def loads (env : JEnv) (b : Bytes) : Option JVal :=
  match if detectUtf8 b then (utf8Text b).or (env.other b) else env.other b with
  | none => none
  | some s => loadsText env s

/-- A lower-case hexadecimal digit. -/
def hexChar (n : Nat) : Char := Char.ofNat (if n < 10 then 48 + n else 87 + n)

/-- `'\\u{0:04x}'.format(n)` for `n` below 65536. -/
def escape4 (n : Nat) : Str :=
  ['\\', 'u', hexChar (n / 4096 % 16), hexChar (n / 256 % 16), hexChar (n / 16 % 16), hexChar (n % 16)]

/-- encoder.py `ESCAPE_DCT`, `py_encode_basestring_ascii`: one character. -/
def dumpChar (c : Char) : Str :=
  if c = '"' then ['\\', '"'] else if c = '\\' then ['\\', '\\']
  else if c = '\n' then ['\\', 'n'] else if c = '\r' then ['\\', 'r'] else if c = '\t' then ['\\', 't']
  else if c.toNat = 12 then ['\\', 'f'] else if c.toNat = 8 then ['\\', 'b']
  else if 32 ≤ c.toNat ∧ c.toNat ≤ 126 then [c]
  else if c.toNat < 0x10000 then escape4 c.toNat
  else escape4 (0xd800 + (c.toNat - 0x10000) / 0x400) ++ escape4 (0xdc00 + (c.toNat - 0x10000) % 0x400)

def dumpString (s : Str) : Str := '"' :: s.flatMap dumpChar ++ ['"']

/-- encoder.py `floatstr` and `int.__repr__`. -/
def dumpNum (env : JEnv) : PyNum → Str
  | .int i => intStr i
  | .flt q => env.floatRepr q
  | .nan => "NaN".toList
  | .inf neg => if neg then "-Infinity".toList else "Infinity".toList

mutual
/-- `json.dumps`: encoder.py `_make_iterencode` with the separators `', '` and `': '`. -/
def dumps (env : JEnv) : JVal → Str
  | .null => "null".toList
  | .bool b => if b then "true".toList else "false".toList
  | .num x => dumpNum env x
  | .str s => dumpString s
  | .arr l => '[' :: dumpItems env l ++ [']']
  | .obj l => '{' :: dumpMembers env l ++ ['}']
def dumpItems (env : JEnv) : List JVal → Str
  | [] => []
  | [v] => dumps env v
  | v :: vs => dumps env v ++ ", ".toList ++ dumpItems env vs
def dumpMembers (env : JEnv) : List (Str × JVal) → Str
  | [] => []
  | [(k, v)] => dumpString k ++ ": ".toList ++ dumps env v
  | (k, v) :: ms => dumpString k ++ ": ".toList ++ dumps env v ++ ", ".toList ++ dumpMembers env ms
end

end CBus.Json
