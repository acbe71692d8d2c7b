import Verif.Spec.Memory

/-! # What is done for the time on the network -/

namespace CBus.Spec
open CBus

/-- A command that tells the time, or the beginning of time signals. -/
inductive OfTime : Eff MqttEff → Prop
  | tells (t : PyDateTime) (code : UInt8) (line : Bytes) (h : ClockLine t code line) : OfTime (.write line)
  | starts : OfTime .startTimesync

/-- What is left without that. -/
inductive Timeless : List (Eff MqttEff) → List (Eff MqttEff) → Prop
  | nil : Timeless [] []
  | time (e : Eff MqttEff) (o l : List (Eff MqttEff)) (h : OfTime e) (hr : Timeless o l) : Timeless (e :: o) l
  | keeps (e : Eff MqttEff) (o l : List (Eff MqttEff)) (h : ¬ OfTime e) (hr : Timeless o l) : Timeless (e :: o) (e :: l)

/-- Two histories that are the same but for time signals. -/
inductive Resynced : List DaemonStep → List DaemonStep → Prop
  | nil : Resynced [] []
  | same (x : DaemonStep) (xs ys : List DaemonStep) (h : Resynced xs ys) : Resynced (x :: xs) (x :: ys)
  | without (xs ys : List DaemonStep) (h : Resynced xs ys) : Resynced (.tick :: xs) ys
  | adding (xs ys : List DaemonStep) (h : Resynced xs ys) : Resynced xs (.tick :: ys)

/-- The same effect, but for the confirmation code. -/
inductive SameOrder : Eff MqttEff → Eff MqttEff → Prop
  | same (e : Eff MqttEff) : SameOrder e e
  | code (text : Bytes) (a b : UInt8) (ha : IsCode a) (hb : IsCode b) :
      SameOrder (.write (text ++ [a, 0x0d])) (.write (text ++ [b, 0x0d]))

/-- One after the other. -/
inductive SameOrders : List (Eff MqttEff) → List (Eff MqttEff) → Prop
  | nil : SameOrders [] []
  | cons (e e' : Eff MqttEff) (o o' : List (Eff MqttEff)) (h : SameOrder e e') (hr : SameOrders o o') :
      SameOrders (e :: o) (e' :: o')

end CBus.Spec
