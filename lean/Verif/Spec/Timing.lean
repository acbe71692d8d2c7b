import Verif.Spec.Street

/-! # How long a light takes -/

namespace CBus.Spec
open CBus

/-- The seconds that the lights take to carry out a command. -/
def Order.time : Order → Int
  | .ramp k _ => rampDurations.getD k 0
  | _ => 0

/-- The seconds that a set message asks for: those in its member `transition`, which may have a fraction. -/
inductive AsksTime (d : List (Str × JVal)) : Rat → Prop
  | absent (h : dictGet d "transition".toList = none) : AsksTime d 0
  | whole (i : Int) (h : dictGet d "transition".toList = some (.num (.int i))) : AsksTime d i
  | fraction (q : Rat) (h : dictGet d "transition".toList = some (.num (.flt q))) : AsksTime d q

/-- The shortest of the possible times that is not shorter than asked. -/
def IsShortest (t : Rat) (q : Int) : Prop :=
  q ∈ rampDurations ∧ t ≤ q ∧ ∀ s ∈ rampDurations, t ≤ s → q ≤ s

/-- The time in a message about the state of a group. -/
def transitionIn (ga : Int) : MqttEff → Option JVal
  | .publish t (.json (.obj v)) _ _ => if t = (topicText .lightState ga).toList then dictGet v "transition".toList else none
  | _ => none

end CBus.Spec
