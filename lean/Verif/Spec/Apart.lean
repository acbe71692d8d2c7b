import Verif.Spec.Memory

/-! # What is done for one light and what for others -/

namespace CBus.Spec
open CBus

/-- The light that an event is about, if it is about one. -/
def lightOf : Event → Option Int
  | .lightingOn _ ga => some ga
  | .lightingOff _ ga => some ga
  | .lightingRamp _ ga _ _ => some ga
  | .lightingTerminate _ ga => some ga
  | _ => none

/-- A lighting command for another light than `g`, a message that says what another light is, or the call of a handler with news
of another light. -/
inductive OfOther (g : Int) : Eff MqttEff → Prop
  | command (ga : Int) (h : ga ≠ g) (h0 : 0 ≤ ga) (h255 : ga ≤ 255) (c : UInt8) (data digits : Bytes) (code : UInt8)
      (hs : Spelled true (0x05 :: 0x38 :: 0x00 :: c :: byteOf ga :: data) digits) :
      OfOther g (.write (0x5c :: digits ++ [code, 0x0d]))
  | light (ga : Int) (h : ga ≠ g) (p : MqttPayload) (qos : Nat) (retain : Bool) :
      OfOther g (.ext (.publish (topicText .lightState ga).toList p qos retain))
  | sensor (ga : Int) (h : ga ≠ g) (p : MqttPayload) (qos : Nat) (retain : Bool) :
      OfOther g (.ext (.publish (topicText .sensorState ga).toList p qos retain))
  | news (e : Event) (ga : Int) (he : lightOf e = some ga) (h : ga ≠ g) : OfOther g (.event e)

/-- What is left without that. -/
inductive Leaves (g : Int) : List (Eff MqttEff) → List (Eff MqttEff) → Prop
  | nil : Leaves g [] []
  | other (e : Eff MqttEff) (o l : List (Eff MqttEff)) (h : OfOther g e) (hr : Leaves g o l) : Leaves g (e :: o) l
  | keeps (e : Eff MqttEff) (o l : List (Eff MqttEff)) (h : ¬ OfOther g e) (hr : Leaves g o l) : Leaves g (e :: o) (e :: l)

/-- Two histories that are the same but for messages that are not for `g`: some are left out in the second, others in the first. -/
inductive Spares (u : UniTable) (g : Int) : List DaemonStep → List DaemonStep → Prop
  | nil : Spares u g [] []
  | same (x : DaemonStep) (xs ys : List DaemonStep) (h : Spares u g xs ys) : Spares u g (x :: xs) (x :: ys)
  | without (topic : Str) (payload : Bytes) (xs ys : List DaemonStep) (ht : ∀ ga, ForLight u topic ga → ga ≠ g)
      (h : Spares u g xs ys) : Spares u g (.message topic payload :: xs) ys
  | adding (topic : Str) (payload : Bytes) (xs ys : List DaemonStep) (ht : ∀ ga, ForLight u topic ga → ga ≠ g)
      (h : Spares u g xs ys) : Spares u g xs (.message topic payload :: ys)

/-- A command about another light than `g`. -/
def ElseWhere (g : Int) : SAL → Bool
  | .lightOn ga => ga ≠ g
  | .lightOff ga => ga ≠ g
  | .lightRamp ga _ _ => ga ≠ g
  | .lightTerminate ga => ga ≠ g
  | _ => false

/-- What is left of reports without the commands about others: the source and the command, one after the other. -/
def heardOf (g : Int) (reports : List PM) : List (Option Int × SAL) :=
  reports.flatMap fun p => (p.sals.filter (! ElseWhere g ·)).map fun x => (p.src, x)

/-- A lighting command that says what `g` is. -/
def SaysOf (g : Int) : SAL → Bool
  | .lightOn ga => ga = g
  | .lightOff ga => ga = g
  | .lightRamp ga _ _ => ga = g
  | _ => false

/-- A message that says what `g` is. -/
def TellsOf (g : Int) : MqttEff → Bool
  | .publish topic _ _ _ => topic = (topicText .lightState g).toList || topic = (topicText .sensorState g).toList
  | _ => false

end CBus.Spec
