import Verif.Model.Mqtt
import Verif.Spec.Client
import Verif.Spec.Number

/-! The MQTT topics and messages of the documentation (docs/cmqttd.rst), written
down independently. -/

namespace CBus.Spec
open CBus

/-- What a topic is for. -/
inductive TopicKind | lightSet | lightState | lightConfig | sensorState | sensorConfig
  deriving DecidableEq, Repr

/-- The topic for a group address. -/
def topicText (k : TopicKind) (ga : Int) : String :=
  match k with
  | .lightSet => "homeassistant/light/cbus_" ++ toString ga ++ "/set"
  | .lightState => "homeassistant/light/cbus_" ++ toString ga ++ "/state"
  | .lightConfig => "homeassistant/light/cbus_" ++ toString ga ++ "/config"
  | .sensorState => "homeassistant/binary_sensor/cbus_" ++ toString ga ++ "/state"
  | .sensorConfig => "homeassistant/binary_sensor/cbus_" ++ toString ga ++ "/config"

/-- The integer that a JSON value stands for: a number (without its fraction), a
boolean, or the decimal text of an integer. -/
inductive IntValue (u : UniTable) : JVal → Int → Prop
  | int (i : Int) : IntValue u (.num (.int i)) i
  | float (q : Rat) (i : Int) (h : (0 ≤ q ∧ (i : Rat) ≤ q ∧ q < i + 1) ∨ (q < 0 ∧ q ≤ i ∧ (i : Rat) - 1 < q)) :
      IntValue u (.num (.flt q)) i
  | bool (b : Bool) : IntValue u (.bool b) (if b then 1 else 0)
  | str (s : Str) (i : Int) (h : DecimalText u s i) : IntValue u (.str s) i

/-- What is raised for a JSON value that stands for no integer. -/
inductive IntError (u : UniTable) : JVal → PyErr → Prop
  | null : IntError u .null .typeError
  | arr (l : List JVal) : IntError u (.arr l) .typeError
  | obj (d : List (Str × JVal)) : IntError u (.obj d) .typeError
  | nan : IntError u (.num .nan) .valueError
  | inf (neg : Bool) : IntError u (.num (.inf neg)) .overflowError
  | str (s : Str) (h : ∀ i, ¬ DecimalText u s i) : IntError u (.str s) .valueError

/-- A set message for a light. -/
structure SetMessage where
  on : Bool
  brightness : Int := 255
  transition : Int := 0
  deriving DecidableEq, Repr

/-- A member of a message: the default if it is missing. -/
def Member (u : UniTable) (d : List (Str × JVal)) (key : String) (default i : Int) : Prop :=
  match dictGet d key.toList with
  | none => i = default
  | some v => IntValue u v i

/-- A text that means on: `ON` in upper or lower case. A text with other characters
than those of ASCII means on if they become `ON` in upper case. -/
def StateOn (u : UniTable) (s : Str) : Prop :=
  s ∈ ["ON".toList, "On".toList, "oN".toList, "on".toList] ∨
    (∃ c ∈ s, 128 ≤ c.toNat) ∧ s.flatMap u.upper = "ON".toList

/-- The message that a JSON value stands for. The state is a text; every other text
than `ON` means off. -/
def Means (u : UniTable) (v : JVal) (m : SetMessage) : Prop :=
  ∃ d s, v = .obj d ∧ dictGet d "state".toList = some (.str s) ∧ (m.on = true ↔ StateOn u s) ∧
    Member u d "brightness" 255 m.brightness ∧ Member u d "transition" 0 m.transition

/-- What is raised for a JSON value that is no message. -/
inductive MessageError (u : UniTable) : JVal → PyErr → Prop
  | notObject (v : JVal) (h : ∀ d, v ≠ .obj d) : MessageError u v .typeError
  | noState (d : List (Str × JVal)) (h : dictGet d "state".toList = none) : MessageError u (.obj d) .keyError
  | state (d : List (Str × JVal)) (x : JVal) (h : dictGet d "state".toList = some x) (hx : ∀ s, x ≠ .str s) :
      MessageError u (.obj d) .attributeError
  | brightness (d : List (Str × JVal)) (s : Str) (h : dictGet d "state".toList = some (.str s)) (x : JVal) (e : PyErr)
      (hb : dictGet d "brightness".toList = some x) (he : IntError u x e) : MessageError u (.obj d) e
  | transition (d : List (Str × JVal)) (s : Str) (h : dictGet d "state".toList = some (.str s)) (b : Int)
      (hb : Member u d "brightness" 255 b) (x : JVal) (e : PyErr)
      (ht : dictGet d "transition".toList = some x) (he : IntError u x e) : MessageError u (.obj d) e

/-- Into 0..255. -/
def clamp (b : Int) : Int := min 255 (max 0 b)

/-- The C-Bus command that a set message asks for. -/
def SetMessage.call (m : SetMessage) (ga : Int) : ClientCall :=
  if m.on then
    if clamp m.brightness = 255 ∧ max 0 m.transition = 0 then .on [ga]
    else .ramp ga (max 0 m.transition) (.int (clamp m.brightness))
  else .off [ga]

/-- The retained state message of a light. -/
def stateMessage (ga : Int) (on : Bool) (level : PyNum) (duration : Int) (src : Option Int) : MqttEff :=
  .publish (topicText .lightState ga).toList
    (.json (.obj [("state".toList, .str (if on then "ON".toList else "OFF".toList)), ("brightness".toList, .num level),
      ("transition".toList, .num (.int duration)),
      ("cbus_source_addr".toList, match src with | none => .null | some a => .num (.int a))])) 1 true

/-- The retained message of a binary sensor. -/
def sensorMessage (ga : Int) (on : Bool) : MqttEff :=
  .publish (topicText .sensorState ga).toList (.text (if on then "ON".toList else "OFF".toList)) 1 true

/-- A level other than zero. -/
def Lit (l : PyNum) : Bool := l.gtRat 0

/-- The messages for an event on the network. -/
def eventMessages : Event → List MqttEff
  | .lightingOn src ga => [stateMessage ga true (.int 255) 0 src, sensorMessage ga true]
  | .lightingOff src ga => [stateMessage ga false (.int 0) 0 src, sensorMessage ga false]
  | .lightingRamp src ga d l => [stateMessage ga true l d src, sensorMessage ga (Lit l)]
  | _ => []

/-- The messages that confirm a set message. -/
def SetMessage.messages (m : SetMessage) (ga : Int) : List MqttEff :=
  if m.on then
    if clamp m.brightness = 255 ∧ max 0 m.transition = 0 then eventMessages (.lightingOn none ga)
    else eventMessages (.lightingRamp none ga (max 0 m.transition) (.int (clamp m.brightness)))
  else eventMessages (.lightingOff none ga)

end CBus.Spec

namespace CBus.Spec
open CBus

/-- The group addresses. -/
def groupAddresses : List Int := (List.range 256).map Int.ofNat

/-- A number with at least three digits. -/
def threeDigits (n : Nat) : Str := (toString n).toList.leftpad 3 '0'

/-- The name of a light: its label, or a generic one. -/
def lightName (labels : List (Int × Str)) (ga : Int) : Str :=
  match dictGet labels ga with
  | some l => l
  | none => "C-Bus Light ".toList ++ threeDigits ga.toNat

/-- A JSON object with text keys. -/
def object (l : List (String × JVal)) : List (Str × JVal) := l.map fun p => (p.1.toList, p.2)

/-- A text in JSON. -/
def text (s : String) : JVal := .str s.toList

/-- How the device of a light or a binary sensor is described to Home Assistant. -/
def deviceOf (kind : String) (ga : Int) : List (Str × JVal) :=
  object [("identifiers", .arr [text (kind ++ toString ga)]),
    ("connections", .arr [.arr [text "cbus_group_address", text (toString ga)]]),
    ("sw_version", text "cmqttd https://github.com/micolous/cbus"),
    ("name", .str ("C-Bus Light ".toList ++ threeDigits ga.toNat)),
    ("manufacturer", text "Clipsal"), ("model", text "C-Bus Lighting Application"), ("via_device", text "cmqttd")]

/-- How `cmqttd` describes itself. -/
def daemonDevice : List (Str × JVal) :=
  object [("identifiers", .arr [text "cmqttd"]), ("sw_version", text "cmqttd https://github.com/micolous/cbus"),
    ("name", text "cmqttd"), ("manufacturer", text "micolous"), ("model", text "libcbus")]

/-- What must be in the configuration message of a light for Home Assistant to find
it: its name, a unique name for the machine, and its topics. -/
structure IsLightConfig (name : Str) (ga : Int) (v : List (Str × JVal)) : Prop where
  name : dictGet v "name".toList = some (.str name)
  unique_id : dictGet v "unique_id".toList = some (.str ("cbus_light_" ++ toString ga).toList)
  cmd : dictGet v "cmd_t".toList = some (.str (topicText .lightSet ga).toList)
  stat : dictGet v "stat_t".toList = some (.str (topicText .lightState ga).toList)
  schema : dictGet v "schema".toList = some (.str "json".toList)
  brightness : dictGet v "brightness".toList = some (.bool true)
  device : dictGet v "device".toList = some (.obj (deviceOf "cbus_light_" ga))
  nothing_else : v.map (·.1) =
    ["name", "unique_id", "cmd_t", "stat_t", "schema", "brightness", "device"].map String.toList

/-- The same for a binary sensor. -/
structure IsSensorConfig (name : Str) (ga : Int) (v : List (Str × JVal)) : Prop where
  name : dictGet v "name".toList = some (.str (name ++ " (as binary sensor)".toList))
  unique_id : dictGet v "unique_id".toList = some (.str ("cbus_bin_sensor_" ++ toString ga).toList)
  stat : dictGet v "stat_t".toList = some (.str (topicText .sensorState ga).toList)
  device : dictGet v "device".toList = some (.obj (deviceOf "cbus_bin_sensor_" ga))
  nothing_else : v.map (·.1) = ["name", "unique_id", "stat_t", "device"].map String.toList

/-- The configuration message of `cmqttd` itself. -/
structure IsDaemonConfig (v : List (Str × JVal)) : Prop where
  base : dictGet v "~".toList = some (text "homeassistant/binary_sensor/cbus_cmqttd")
  name : dictGet v "name".toList = some (text "cmqttd")
  unique_id : dictGet v "unique_id".toList = some (text "cmqttd")
  stat : dictGet v "stat_t".toList = some (text "~/state")
  device : dictGet v "device".toList = some (.obj daemonDevice)
  nothing_else : v.map (·.1) = ["~", "name", "unique_id", "stat_t", "device"].map String.toList

end CBus.Spec
