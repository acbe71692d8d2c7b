import Verif.Spec.Timing

/-! # Home Assistant

What its documentation says about MQTT discovery and about lights with the JSON schema
(docs/cmqttd.rst:9-14 and 290-345 refer to it), as far as cmqttd uses it. -/

namespace CBus.Spec.Hass
open CBus CBus.Spec

/-- The parts of a text between slashes. -/
def parts : Str → List Str
  | [] => [[]]
  | c :: s =>
    if c = '/' then [] :: parts s
    else match parts s with
      | p :: ps => (c :: p) :: ps
      | [] => [[c]]

/-- A letter, a digit, an underscore or a hyphen. -/
def idChar (c : Char) : Bool := c.isAlphanum || c = '_' || c = '-'

/-- `homeassistant/<component>/[<node>/]<object>/config`: the component. -/
def component (topic : Str) : Option Str :=
  match parts topic with
  | [a, c, o, z] =>
    if a = "homeassistant".toList ∧ z = "config".toList ∧ o ≠ [] ∧ o.all idChar = true then some c else none
  | [a, c, n, o, z] =>
    if a = "homeassistant".toList ∧ z = "config".toList ∧ o ≠ [] ∧ o.all idChar = true ∧ n ≠ [] ∧ n.all idChar = true then
      some c
    else none
  | _ => none

/-- The long name of a member; names can be abbreviated. -/
def long (k : Str) : Str :=
  if k = "cmd_t".toList then "command_topic".toList
  else if k = "stat_t".toList then "state_topic".toList
  else if k = "uniq_id".toList then "unique_id".toList
  else if k = "dev".toList then "device".toList
  else k

/-- A member by its long name. -/
def member (d : List (Str × JVal)) (k : String) : Option JVal := dictGet (d.map fun m => (long m.1, m.2)) k.toList

/-- A member that is a text. -/
def textMember (d : List (Str × JVal)) (k : String) : Option Str :=
  match member d k with
  | some (.str s) => some s
  | _ => none

/-- A member that is a topic: a tilde at its beginning or its end stands for the member `~`. -/
def topicMember (d : List (Str × JVal)) (k : String) : Option Str :=
  (textMember d k).map fun t =>
    match textMember d "~" with
    | none => t
    | some base =>
      match t with
      | '~' :: r => base ++ r
      | _ => if t.getLast? = some '~' then t.dropLast ++ base else t

/-- What is on the dashboard. -/
inductive Entity
  /-- A light: its name, its identity, where orders for it go and where its state comes from. -/
  | light (name id command state : Str) (dimmable : Bool)
  | sensor (name id state : Str)
  deriving DecidableEq, Repr

/-- What is made of a configuration message. -/
def entity (topic : Str) : JVal → Option Entity
  | .obj d =>
    match component topic, textMember d "name", textMember d "unique_id", topicMember d "state_topic" with
    | some c, some name, some id, some state =>
      if c = "light".toList then
        if textMember d "schema" = some "json".toList then
          (topicMember d "command_topic").map fun command =>
            .light name id command state (decide (member d "brightness" = some (.bool true)))
        else none
      else if c = "binary_sensor".toList then some (.sensor name id state)
      else none
    | _, _, _, _ => none
  | _ => none

/-- What is made of a message of the daemon. -/
def found : MqttEff → Option Entity
  | .publish topic (.json v) _ true => entity topic v
  | _ => none

/-- The identity of an entity. -/
def Entity.id : Entity → Str
  | .light _ id _ _ _ => id
  | .sensor _ id _ => id

/-- What one can do with a light: brightness from 1 to 255, a time in seconds. -/
inductive Service
  | turnOn (brightness : Option Int) (transition : Option PyNum)
  | turnOff (transition : Option PyNum)
  deriving DecidableEq, Repr

def Service.transition : Service → Option PyNum
  | .turnOn _ t => t
  | .turnOff t => t

/-- What can be asked for. -/
def Service.Ok (sv : Service) : Prop :=
  (∀ b t, sv = .turnOn (some b) t → 1 ≤ b ∧ b ≤ 255) ∧
  ∀ t, sv.transition = some t → (∃ i : Int, t = .int i ∧ 0 ≤ i) ∨ ∃ q : Rat, t = .flt q ∧ 0 ≤ q

/-- A member that may be left out. -/
def optional (k : String) : Option PyNum → List (Str × JVal)
  | none => []
  | some x => [(k.toList, .num x)]

/-- The message that is sent. -/
def Service.message : Service → JVal
  | .turnOn b t => .obj ((("state".toList, text "ON") :: optional "transition" t) ++ optional "brightness" (b.map .int))
  | .turnOff t => .obj (("state".toList, text "OFF") :: optional "transition" t)

/-- How a light is shown. -/
inductive Shown
  | off
  | on (brightness : Int)
  deriving DecidableEq, Repr

/-- How a message about the state of a light is taken. -/
def Shown.read : MqttPayload → Option Shown
  | .json (.obj d) =>
    if dictGet d "state".toList = some (text "ON") then
      match dictGet d "brightness".toList with
      | some (.num (.int b)) => some (.on b)
      | _ => none
    else if dictGet d "state".toList = some (text "OFF") then some .off
    else none
  | _ => none

/-- The payload of a message on a topic. -/
def onTopic (topic : Str) : MqttEff → Option MqttPayload
  | .publish t p _ _ => if t = topic then some p else none
  | _ => none

/-- How a light is shown after some messages: as the last one about it says. -/
def shownAfter (state : Str) (ms : List MqttEff) : Option Shown := ((ms.filterMap (onTopic state)).getLast?).bind Shown.read

/-- How the light is to be shown after something was asked for. -/
def Service.wanted : Service → Shown
  | .turnOn b _ => .on (b.getD 255)
  | .turnOff _ => .off

/-- How it is to be shown after a command of another unit. -/
def ordered : Order → Shown
  | .off => .off
  | .on => .on 255
  | .ramp _ l => .on l.toNat

/-- What happens: something is asked for, or another unit sends a command. -/
inductive Deed
  | call (ga : UInt8) (sv : Service)
  | told (src : UInt8) (ga : UInt8) (x : Order) (line : Bytes)

/-- How a light is to be shown after a deed. -/
def Deed.wanted (g : UInt8) : Deed → Option Shown
  | .call ga sv => if ga = g then some sv.wanted else none
  | .told _ ga x _ => if ga = g then some (ordered x) else none

end CBus.Spec.Hass
