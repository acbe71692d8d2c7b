import Verif.Model.Url

/-! # Percent encoding (RFC 3986, section 2.1) -/

namespace CBus.Spec

/-- `c` is the hexadecimal digit of value `v`, small or capital. -/
def HexDigitOf (c : Char) (v : Nat) : Prop :=
  "0123456789abcdef".toList[v]? = some c ∨ "0123456789ABCDEF".toList[v]? = some c

/-- The octets that text of ASCII characters spells: characters for themselves, `%` and
two digits for the octet of that value, and a `%` without two digits for itself. -/
inductive Spells : Str → Bytes → Prop
  | nil : Spells [] []
  | plain (c : Char) (t : Str) (o : Bytes) (hc : c.toNat < 128) (hp : c ≠ '%') (h : Spells t o) :
      Spells (c :: t) (UInt8.ofNat c.toNat :: o)
  | escape (a b : Char) (x y : Nat) (t : Str) (o : Bytes) (ha : HexDigitOf a x) (hb : HexDigitOf b y) (h : Spells t o) :
      Spells ('%' :: a :: b :: t) (UInt8.ofNat (16 * x + y) :: o)
  | stray (t : Str) (o : Bytes) (hn : ∀ a b u x y, t = a :: b :: u → ¬ (HexDigitOf a x ∧ HexDigitOf b y))
      (h : Spells t o) : Spells ('%' :: t) (0x25 :: o)

end CBus.Spec
