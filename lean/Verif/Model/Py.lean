/-!
# Python primitives used by the modelled code

Facts about Python that are trusted here (they are the meaning of the language
constructs used by `/repo`, not part of `/repo` itself):

* `data[i]` on `bytes` raises `IndexError` out of range, slices never raise;
* `bytes([x, ...])` raises `ValueError` unless every `x` is in `0..255` (and
  `TypeError` if some `x` is not an integer);
* `x & m` for a negative `x` acts on the two's complement representation;
* `bytes.find`, `bytes.startswith`, `base64.b16encode`, `base64.b16decode`;
* `six.byte2int(b) = b[0]`, `six.indexbytes(b, i) = b[i]`,
  `six.int2byte(i) = bytes([i])`.
-/

namespace CBus

/-- The exception classes that the modelled code can raise. Messages are not
modelled. `binasciiError` is `binascii.Error` (a `ValueError` subclass),
`structError` is `struct.error`. -/
inductive PyErr
  | valueError | indexError | keyError | typeError | notImplemented
  | structError | binasciiError | overflowError | attributeError | ioError
  | invalidState | nameError | parseError
  deriving DecidableEq, Repr

/-- A computation that returns a value or raises. -/
abbrev Py (α : Type) := Except PyErr α

abbrev Bytes := List UInt8

instance {α : Type} [DecidableEq α] : DecidableEq (Py α) := fun a b =>
  match a, b with
  | .ok x, .ok y => if h : x = y then isTrue (by rw [h]) else isFalse (by simpa using h)
  | .error x, .error y => if h : x = y then isTrue (by rw [h]) else isFalse (by simpa using h)
  | .ok _, .error _ => isFalse (by simp)
  | .error _, .ok _ => isFalse (by simp)

/-- `data[i]` for a non-negative index. -/
def byteAt (d : Bytes) (i : Nat) : Py UInt8 :=
  match d[i]? with
  | some b => .ok b
  | none => .error .indexError

/-- One element of `bytes([...])`: integers outside `0..255` raise `ValueError`. -/
def mkByte (x : Int) : Py UInt8 :=
  if 0 ≤ x ∧ x < 256 then .ok (UInt8.ofNat x.toNat) else .error .valueError

/-- `x & 0xff` as a byte, for any Python integer. -/
def lowByte (x : Int) : UInt8 := UInt8.ofNat (x % 256).toNat

/-- `bytes.find(pat)`; `none` stands for `-1`. -/
def find (pat : Bytes) : Bytes → Option Nat
  | [] => if pat = [] then some 0 else none
  | x :: xs =>
    if pat.isPrefixOf (x :: xs) then some 0 else (find pat xs).map (· + 1)

/-- The upper-case base16 digit for a nibble (`b'0123456789ABCDEF'[n]`). -/
def hexDigit (n : Nat) : UInt8 :=
  if n < 10 then UInt8.ofNat (48 + n) else UInt8.ofNat (55 + n)

/-- Value of an upper-case base16 digit. -/
def hexVal (c : UInt8) : Option Nat :=
  if 48 ≤ c.toNat ∧ c.toNat ≤ 57 then some (c.toNat - 48)
  else if 65 ≤ c.toNat ∧ c.toNat ≤ 70 then some (c.toNat - 55)
  else none

/-- `base64.b16encode`. -/
def b16encode : Bytes → Bytes
  | [] => []
  | b :: bs => hexDigit (b.toNat / 16) :: hexDigit (b.toNat % 16) :: b16encode bs

/-- `base64.b16decode` (without case folding): raises `binascii.Error` on an
odd number of digits or a non-digit. -/
def b16decode : Bytes → Py Bytes
  | [] => .ok []
  | [_] => .error .binasciiError
  | h :: l :: rest =>
    match hexVal h, hexVal l with
    | some a, some b =>
      match b16decode rest with
      | .ok r => .ok (UInt8.ofNat (a * 16 + b) :: r)
      | .error e => .error e
    | _, _ => .error .binasciiError

/-- A number a Python caller may pass where the code expects an `int` or a
`float`: an integer, a finite float (kept as the exact rational it denotes), a
NaN or an infinity. -/
inductive PyNum
  | int (i : Int)
  | flt (q : Rat)
  | nan
  | inf (neg : Bool)
  deriving DecidableEq, Repr

namespace PyNum

/-- `a < q` (comparisons with NaN are `False`). -/
def ltRat : PyNum → Rat → Bool
  | .int i, q => decide ((i : Rat) < q)
  | .flt r, q => decide (r < q)
  | .nan, _ => false
  | .inf neg, _ => neg

/-- `a > q`. -/
def gtRat : PyNum → Rat → Bool
  | .int i, q => decide (q < (i : Rat))
  | .flt r, q => decide (q < r)
  | .nan, _ => false
  | .inf neg, _ => !neg

/-- `q <= a`. -/
def geRat : PyNum → Rat → Bool
  | .int i, q => decide (q ≤ (i : Rat))
  | .flt r, q => decide (q ≤ r)
  | .nan, _ => false
  | .inf neg, _ => !neg

/-- `a <= q`. -/
def leRat : PyNum → Rat → Bool
  | .int i, q => decide ((i : Rat) ≤ q)
  | .flt r, q => decide (r ≤ q)
  | .nan, _ => false
  | .inf neg, _ => neg

/-- One element of `bytes([...])` that may not be an `int`: floats raise
`TypeError`. -/
def toByte : PyNum → Py UInt8
  | .int i => mkByte i
  | _ => .error .typeError

end PyNum

/-- `int(x)` truncates towards zero. -/
def truncRat (q : Rat) : Int := if 0 ≤ q then q.floor else -((-q).floor)

end CBus
