import Verif.Model.Sal

/-! # Durations that are not whole numbers

`duration_to_ramp_rate` only compares its argument, so that it takes a float as well; so do `LightingRampSAL` and
what it is made by. In the rest of the model durations are integers. -/

namespace CBus

/-- The `for` loop of common.py:324-328. -/
def durationSearchNum (seconds : PyNum) : List (Nat × UInt8) → UInt8
  | [] => lcRampSlowest
  | (d, c) :: rest => if seconds.leRat d then c else durationSearchNum seconds rest

/-- common.py:314-328 `duration_to_ramp_rate`, for every number. -/
def durationToRampRateNum (seconds : PyNum) : UInt8 := durationSearchNum seconds durationToRate

/-- lighting.py:107-113, 170-178: `LightingRampSAL(ga, duration, level).encode()`, for every number. -/
def rampEncodeNum (ga : Int) (duration level : PyNum) : Py Bytes :=
  if level.ltRat 0 || level.gtRat 255 then .error .valueError
  else
    match checkGa ga, mkByte ga, level.toByte with
    | .ok _, .ok g, .ok l => .ok [durationToRampRateNum duration, g, l]
    | .error e, _, _ => .error e
    | _, .error e, _ => .error e
    | _, _, .error e => .error e

end CBus
