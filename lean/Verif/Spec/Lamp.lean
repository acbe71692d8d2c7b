import Verif.Spec.Mqtt
import Verif.Model.Client

/-! # What a light does, and what the broker shows of it

A light that is told to ramp takes its time; one that is told to stop stays where it is. -/

namespace CBus.Spec
open CBus

/-- A light on its way: its level when it set off, the level it goes to, when it set off and how
many seconds it takes. A light at rest goes where it is. Ramps are taken to be linear. -/
structure Lamp where
  from_ : Rat
  to_ : Rat
  since : Rat
  takes : Rat

/-- The level at a time. -/
def Lamp.level (l : Lamp) (t : Rat) : Rat :=
  if l.since + l.takes ≤ t then l.to_ else l.from_ + (l.to_ - l.from_) * ((t - l.since) / l.takes)

/-- A light that has a level and keeps it. -/
def Lamp.rest (x t : Rat) : Lamp := ⟨x, x, t, 0⟩

/-- What an event at a time makes of the light of a group. -/
def Lamp.hears (ga : Int) (l : Lamp) : Rat × Event → Lamp
  | (t, .lightingOn _ g) => if g = ga then .rest 255 t else l
  | (t, .lightingOff _ g) => if g = ga then .rest 0 t else l
  | (t, .lightingRamp _ g d (.int x)) => if g = ga then ⟨l.level t, x, t, d⟩ else l
  | (t, .lightingTerminate _ g) => if g = ga then .rest (l.level t) t else l
  | _ => l

/-- One event after the other. -/
def Lamp.after (ga : Int) (l : Lamp) (h : List (Rat × Event)) : Lamp := h.foldl (Lamp.hears ga) l

/-- Events that come from the network: levels are whole numbers, and a request for the time is
another matter. -/
def Sound (e : Event) : Prop :=
  (∀ src, e ≠ .clockRequest src) ∧ ∀ src g d x, e = .lightingRamp src g d x → ∃ i, x = .int i

/-- An event that says which level the light of a group is to have. -/
def Tells (ga : Int) : Event → Option Int
  | .lightingOn _ g => if g = ga then some 255 else none
  | .lightingOff _ g => if g = ga then some 0 else none
  | .lightingRamp _ g _ (.int x) => if g = ga then some x else none
  | _ => none

/-- The brightness in a message about the state of a group. -/
def brightnessIn (ga : Int) : MqttEff → Option JVal
  | .publish t (.json (.obj v)) _ _ => if t = (topicText .lightState ga).toList then dictGet v "brightness".toList else none
  | _ => none

/-- The last brightness that was published for a group. -/
def shown (ga : Int) (o : List MqttEff) : Option JVal := (o.filterMap (brightnessIn ga)).getLast?

/-- No light is stopped on its way. -/
def Undisturbed (ga : Int) : Lamp → List (Rat × Event) → Prop
  | _, [] => True
  | l, (t, e) :: h => (∀ src, e = .lightingTerminate src ga → l.level t = l.to_) ∧ Undisturbed ga (l.hears ga (t, e)) h

end CBus.Spec
