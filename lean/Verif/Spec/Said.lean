import Verif.Spec.Life
import Verif.Spec.Source

/-! # Who has said what the broker shows of a light -/

namespace CBus.Spec
open CBus

/-- All that has been received, one piece behind the other. -/
def receivedIn : List DaemonStep → Bytes
  | [] => []
  | .receive d :: xs => d ++ receivedIn xs
  | _ :: xs => receivedIn xs

/-- A topic that shows the state of a group, as a light or as a binary sensor. -/
def ShowsState (ga : Int) (topic : Str) : Prop :=
  topic = (topicText .lightState ga).toList ∨ topic = (topicText .sensorState ga).toList

/-- A light has been switched or ramped. -/
inductive Moved (ga : Int) : Event → Prop
  | on (src : Option Int) : Moved ga (.lightingOn src ga)
  | off (src : Option Int) : Moved ga (.lightingOff src ga)
  | ramp (src : Option Int) (d : Int) (l : PyNum) : Moved ga (.lightingRamp src ga d l)

/-- What is shown of a group in a step was asked for in that step, by a message on the set topic of the
group, or it is what a line of the network says, which is complete with that step. `before` is what had
been received before. -/
inductive Said (u : UniTable) (before : Bytes) (ga : Int) (m : MqttEff) : DaemonStep → Prop
  | asked (topic : Str) (payload : Bytes) (h : ForLight u topic ga) : Said u before ga m (.message topic payload)
  | heard (d line : Bytes) (e : Event) (h : line ++ [0x0d, 0x0a] <:+: before ++ d) (hs : LineSays line e)
      (he : Moved ga e) (hm : m ∈ eventMessages e) : Said u before ga m (.receive d)

end CBus.Spec
