import Verif.Model.Sal
import Verif.Spec.Codec
import Verif.Spec.Cal

/-! Which SALs are well formed, and what a receiver makes of them. -/

namespace CBus.Spec

/-- The exact numeric value of a number, if it has one. -/
def numValue : PyNum → Option Rat
  | .int i => some i
  | .flt q => some q
  | .nan => none
  | .inf _ => none

/-- A temperature C-Bus can express: 0 to 63.75 degrees. -/
def TempOk (t : PyNum) : Prop := match numValue t with
  | some q => 0 ≤ q ∧ q ≤ 255 / 4
  | none => False

instance (t : PyNum) : Decidable (TempOk t) := by
  unfold TempOk; split <;> infer_instance

/-- A brightness level C-Bus can express. -/
def LevelNumOk : PyNum → Prop
  | .int l => IsByte l
  | _ => False

instance (t : PyNum) : Decidable (LevelNumOk t) := by
  cases t <;> (unfold LevelNumOk; infer_instance)

/-- A SAL whose fields fit the places the protocol has for them. -/
def SalOk : SAL → Prop
  | .lightOn ga => IsByte ga
  | .lightOff ga => IsByte ga
  | .lightTerminate ga => IsByte ga
  | .lightRamp ga _ l => IsByte ga ∧ LevelNumOk l
  | .clockUpdate (.date d) => d.Valid
  | .clockUpdate (.time t) => t.Valid
  | .clockRequest => True
  | .temperature ga t => IsByte ga ∧ TempOk t
  | .enableSet _ _ => True
  | .statusRequest _ _ _ => True

instance : (s : SAL) → Decidable (SalOk s)
  | .lightOn _ | .lightOff _ | .lightTerminate _ | .lightRamp _ _ _ | .clockUpdate (.date _)
  | .clockUpdate (.time _) | .clockRequest | .temperature _ _ | .enableSet _ _
  | .statusRequest _ _ _ => by unfold SalOk; infer_instance

/-- `q` rounded down to a multiple of a quarter. -/
def floorQuarter (q : Rat) : Rat := ((q * 4).floor : Rat) / 4

/-- What a well-formed SAL is on the other side of the wire: durations become
the supported duration a C-Bus unit uses, times lose their microseconds,
temperatures are rounded down to a quarter degree, enable variables and status
request fields are cut to their width. -/
def received : SAL → SAL
  | .lightRamp ga d l => .lightRamp ga (quantise d) l
  | .clockUpdate (.time t) => .clockUpdate (.time ⟨t.hour, t.minute, t.second, 0⟩)
  | .temperature ga t => .temperature ga (.flt (floorQuarter ((numValue t).getD 0)))
  | .enableSet v x => .enableSet (v % 256) (x % 256)
  | .statusRequest l ga c => .statusRequest l (ga % 256 / 32 * 32) (c % 256)
  | s => s

/-- Well-formed SALs, all of the application `a`. -/
def SalsFor (a : Int) (sals : List SAL) : Prop := ∀ s ∈ sals, SalOk s ∧ s.application = a

instance (a : Int) (sals : List SAL) : Decidable (SalsFor a sals) := by
  unfold SalsFor; infer_instance

/-- Which handler each application ID should have. -/
def expectedHandler (i : Int) : Option AppHandler :=
  if i = 0x19 then some .temperature
  else if 0x30 ≤ i ∧ i ≤ 0x5f then some .lighting
  else if i = 0xcb then some .enable
  else if i = 0xdf then some .clock
  else if i = 0xff then some .statusRequest
  else none

end CBus.Spec
