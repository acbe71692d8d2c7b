import Verif.Model.Cal
import Verif.Spec.Report

/-! Which CALs are well formed: every field fits the place the protocol has for
it. -/

namespace CBus.Spec

/-- A byte-sized integer. -/
def IsByte (x : Int) : Prop := 0 ≤ x ∧ x < 256

instance (x : Int) : Decidable (IsByte x) := by unfold IsByte; infer_instance

/-- A report that the wire format can express: whole bytes of binary states, or
levels each missing or a byte. -/
def ReportOk : Report → Prop
  | .binary s => s.length % 4 = 0
  | .level s => ∀ l ∈ s, LevelOk l

instance (r : Report) : Decidable (ReportOk r) := by
  cases r <;> (unfold ReportOk; infer_instance)

/-- Size of a report on the wire, in bytes: two bits per binary state (rounded
up to whole bytes), two bytes per level. -/
def reportSize : Report → Nat
  | .binary s => (s.length + 3) / 4
  | .level s => 2 * s.length

/-- A CAL whose fields fit. -/
def CalOk : CAL → Prop
  | .identify a => 0 ≤ a ∧ a ≤ 0x11
  | .recall p c => IsByte p ∧ IsByte c
  | .reply p d => IsByte p ∧ d.length ≤ 30
  | .extended _ app blk r => IsByte app ∧ IsByte blk ∧ ReportOk r ∧ reportSize r ≤ 28

instance (c : CAL) : Decidable (CalOk c) := by
  cases c <;> (unfold CalOk; infer_instance)

end CBus.Spec
