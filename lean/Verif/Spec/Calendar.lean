import Verif.Model.Sal

/-! The Gregorian calendar, by counting days. -/

namespace CBus.Spec

/-- Gregorian leap years. -/
def Leap (y : Nat) : Prop := y % 4 = 0 ∧ (y % 100 = 0 → y % 400 = 0)

instance (y : Nat) : Decidable (Leap y) := by unfold Leap; infer_instance

/-- Length of a month: "thirty days hath September...". -/
def monthLength (y m : Nat) : Nat :=
  match m with
  | 1 => 31 | 2 => if Leap y then 29 else 28 | 3 => 31 | 4 => 30 | 5 => 31 | 6 => 30
  | 7 => 31 | 8 => 31 | 9 => 30 | 10 => 31 | 11 => 30 | 12 => 31 | _ => 0

/-- The day after. -/
def nextDay (d : PyDate) : PyDate :=
  if d.day < monthLength d.year d.month then ⟨d.year, d.month, d.day + 1⟩
  else if d.month < 12 then ⟨d.year, d.month + 1, 1⟩
  else ⟨d.year + 1, 1, 1⟩

/-- `w` is the day of the week of `d` (Monday is 0): 1 January of year 1 was a
Monday, and each day is followed by the next. -/
inductive IsWeekday : PyDate → Nat → Prop
  | first : IsWeekday ⟨1, 1, 1⟩ 0
  | next {d : PyDate} {w : Nat} : IsWeekday d w → IsWeekday (nextDay d) ((w + 1) % 7)

end CBus.Spec
