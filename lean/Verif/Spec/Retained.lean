import Verif.Spec.Life

/-! # What a broker keeps

MQTT 3.1.1, 3.3.1.3: the broker keeps for each topic the last message that was published with the
retain flag, an empty one clears it, and sends it to each client that subscribes to the topic. -/

namespace CBus.Spec
open CBus

/-- What is kept after a message. -/
def keepMessage (topic : Str) (payload : Bytes) (keep : List (Str × Bytes)) : List (Str × Bytes) :=
  (keep.filter fun x => x.1 ≠ topic) ++ if payload = [] then [] else [(topic, payload)]

/-- What is kept after what the daemon did; `text` are the bytes of a payload. -/
def keepEffects (text : MqttPayload → Bytes) (o : List (Eff MqttEff)) (keep : List (Str × Bytes)) : List (Str × Bytes) :=
  o.foldl (fun k x => match x with
    | .ext (.publish t p _ true) => keepMessage t (text p) k
    | _ => k) keep

/-- The topics that were subscribed to. -/
def topicsAsked (o : List (Eff MqttEff)) : List Str :=
  o.flatMap fun x => match x with
    | .ext (.subscribe ts) => ts.map (·.1)
    | _ => []

/-- What can happen around a broker: another client publishes something, the daemon connects to it or
is disconnected, or something happens to the daemon on the C-Bus side. -/
inductive Affair
  | other (topic : Str) (payload : Bytes) (retain : Bool)
  | connects (labels : List (Int × Str))
  | leaves
  | made
  | lost
  | receive (d : Bytes)
  | tick

end CBus.Spec
