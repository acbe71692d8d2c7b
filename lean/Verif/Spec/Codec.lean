/-! Specifications for checksums, hexadecimal text and ramp rates, stated
without reference to the model. -/

namespace CBus.Spec

/-- A message carries a valid checksum when its bytes sum to zero modulo 256
(Serial Interface User Guide: two's complement of the sum). -/
def SumsToZero (m : List UInt8) : Prop := (m.map UInt8.toNat).sum % 256 = 0

instance (m : List UInt8) : Decidable (SumsToZero m) := by unfold SumsToZero; infer_instance

/-- A digit `0`-`9` or `A`-`F`, as a character code. -/
def HexDigit (c : UInt8) : Prop :=
  (48 ≤ c.toNat ∧ c.toNat ≤ 57) ∨ (65 ≤ c.toNat ∧ c.toNat ≤ 70)

/-- Characters with a special meaning on the C-Bus serial line: CR, LF, `!`,
`#`, `+`, `.`, `?`, `@`, `\`, `g`..`z`, `|`, `~`. -/
def LineControl : List UInt8 :=
  [13, 10, 33, 35, 43, 46, 63, 64, 92, 103, 104, 105, 106, 107, 108, 109, 110, 111, 112, 113,
   114, 115, 116, 117, 118, 119, 120, 121, 122, 124, 126]

/-- The ramp durations C-Bus supports, in seconds, ascending (Lighting
Application guide). -/
def rampDurations : List Int :=
  [0, 4, 8, 12, 20, 30, 40, 60, 90, 120, 180, 300, 420, 600, 900, 1020]

/-- The documented ramp command for each duration: `0x02 + 8 * k` for the
`k`-th duration. -/
def rampCode (k : Nat) : Nat := 2 + 8 * k

/-- `q` is the duration a C-Bus unit will actually use for a requested duration
`d`: the least supported one that is not below it, or the longest supported one
if there is none. -/
def IsQuantised (d q : Int) : Prop :=
  q ∈ rampDurations ∧
  (d ≤ 1020 → d ≤ q ∧ ∀ s ∈ rampDurations, d ≤ s → q ≤ s) ∧
  (1020 < d → q = 1020)

/-- The same as a function. -/
def quantise (d : Int) : Int :=
  if d ≤ 0 then 0 else if d ≤ 4 then 4 else if d ≤ 8 then 8 else if d ≤ 12 then 12
  else if d ≤ 20 then 20 else if d ≤ 30 then 30 else if d ≤ 40 then 40 else if d ≤ 60 then 60
  else if d ≤ 90 then 90 else if d ≤ 120 then 120 else if d ≤ 180 then 180
  else if d ≤ 300 then 300 else if d ≤ 420 then 420 else if d ≤ 600 then 600
  else if d ≤ 900 then 900 else 1020

/-- The bytes of an ASCII text, for writing examples. -/
def ascii (s : String) : List UInt8 := s.toList.map fun c => UInt8.ofNat c.toNat

end CBus.Spec
