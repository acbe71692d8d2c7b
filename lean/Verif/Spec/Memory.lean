import Verif.Spec.Outlet

/-! # Doing the same, whatever came before -/

namespace CBus.Spec
open CBus

/-- The same thing is done: only the confirmation code of a line may be another, and in a line that
tells the time also the time. -/
inductive SameDeed : Eff MqttEff → Eff MqttEff → Prop
  | same (e : Eff MqttEff) : SameDeed e e
  | code (text : Bytes) (a b : UInt8) (ha : IsCode a) (hb : IsCode b) :
      SameDeed (.write (text ++ [a, 0x0d])) (.write (text ++ [b, 0x0d]))
  | time (t t' : PyDateTime) (a b : UInt8) (line line' : Bytes) (h : ClockLine t a line) (h' : ClockLine t' b line') :
      SameDeed (.write line) (.write line')

/-- The same things are done, in the same order. -/
inductive SameDeeds : List (Eff MqttEff) → List (Eff MqttEff) → Prop
  | nil : SameDeeds [] []
  | cons (e e' : Eff MqttEff) (o o' : List (Eff MqttEff)) (h : SameDeed e e') (hr : SameDeeds o o') :
      SameDeeds (e :: o) (e' :: o')

/-- In each step the same things are done, and it ends the same way. -/
inductive SameLife : List (List (Eff MqttEff) × Py Unit) → List (List (Eff MqttEff) × Py Unit) → Prop
  | nil : SameLife [] []
  | cons (o o' : List (Eff MqttEff)) (r : Py Unit) (os os' : List (List (Eff MqttEff) × Py Unit)) (h : SameDeeds o o')
      (hr : SameLife os os') : SameLife ((o, r) :: os) ((o', r) :: os')

end CBus.Spec
