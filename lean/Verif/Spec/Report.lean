/-! Specification of the level coding used in status reports. -/

namespace CBus.Spec

/-- IEEE 802.3 Manchester coding of a byte, least significant bit first: a zero
bit is sent as the pair `10`, a one bit as the pair `01`. -/
def manchesterWord (v : Nat) : Nat :=
  ((List.range 8).map fun i => (if v.testBit i then 1 else 2) * 4 ^ i).sum

/-- A legal code nibble: two Manchester pairs. -/
def LegalNibble (n : Nat) : Prop := n = 0b1010 ∨ n = 0b1001 ∨ n = 0b0110 ∨ n = 0b0101

instance (n : Nat) : Decidable (LegalNibble n) := by unfold LegalNibble; infer_instance

/-- A level that a report can carry: missing, or a byte. -/
def LevelOk : Option Int → Prop
  | none => True
  | some v => 0 ≤ v ∧ v < 256

instance (l : Option Int) : Decidable (LevelOk l) := by
  cases l <;> (unfold LevelOk; infer_instance)

end CBus.Spec
