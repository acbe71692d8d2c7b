import Verif.Model.Json
import Verif.Model.Client

/-! # `cbus/daemon/cmqttd.py`: topics, `CBusHandler`, `MqttClient` -/

namespace CBus

/-- cmqttd.py:40 -/
def binSensorTopicPrefix : Str := "homeassistant/binary_sensor/cbus_".toList
/-- cmqttd.py:41 -/
def lightTopicPrefix : Str := "homeassistant/light/cbus_".toList
/-- cmqttd.py:42 -/
def topicSetSuffix : Str := "/set".toList
/-- cmqttd.py:43 -/
def topicConfSuffix : Str := "/config".toList
/-- cmqttd.py:44 -/
def topicStateSuffix : Str := "/state".toList
/-- cmqttd.py:45 -/
def metaTopic : Str := "homeassistant/binary_sensor/cbus_cmqttd".toList

/-- cmqttd.py:48-49 `ga_range`. -/
def gaRange : List Int := (List.range 256).map Int.ofNat

/-- cmqttd.py:52-59 `get_topic_group_address`. -/
def getTopicGroupAddress (u : UniTable) (topic : Str) : Py Int :=
  if !topic.startsWith lightTopicPrefix then .error .valueError
  else
    match u.intOf ((topic.drop lightTopicPrefix.length).takeWhile (· ≠ '/')) with
    | .error e => .error e
    | .ok ga =>
      match checkGa ga with
      | .error e => .error e
      | .ok _ => .ok ga

/-- cmqttd.py:62-64 -/
def setTopic (ga : Int) : Str := lightTopicPrefix ++ intStr ga ++ topicSetSuffix
/-- cmqttd.py:67-69 -/
def stateTopic (ga : Int) : Str := lightTopicPrefix ++ intStr ga ++ topicStateSuffix
/-- cmqttd.py:72-74 -/
def confTopic (ga : Int) : Str := lightTopicPrefix ++ intStr ga ++ topicConfSuffix
/-- cmqttd.py:77-79 -/
def binSensorStateTopic (ga : Int) : Str := binSensorTopicPrefix ++ intStr ga ++ topicStateSuffix
/-- cmqttd.py:82-84 -/
def binSensorConfTopic (ga : Int) : Str := binSensorTopicPrefix ++ intStr ga ++ topicConfSuffix

/-- The payload of a message: a JSON text (kept as the value it is the text of) or
a string. -/
inductive MqttPayload
  | json (v : JVal)
  | text (s : Str)
  deriving DecidableEq, Repr

/-- What a `MqttClient` asks the MQTT library to do. -/
inductive MqttEff
  | publish (topic : Str) (payload : MqttPayload) (qos : Nat) (retain : Bool)
  | subscribe (topics : List (Str × Nat))
  deriving DecidableEq, Repr

namespace Mqtt

/-- The effects of the daemon: those of its `CBusHandler` and those of its
`MqttClient`. -/
abbrev Act := Proc Client (Eff MqttEff) Unit

/-- cmqttd.py:173-176 `publish`. -/
def publish (topic : Str) (payload : JVal) : Act := Proc.emit (.ext (.publish topic (.json payload) 1 true))

/-- cmqttd.py:230-233 `publish_binary_sensor`. -/
def publishBinarySensor (ga : Int) (state : Bool) : Act :=
  Proc.emit (.ext (.publish (binSensorStateTopic ga) (.text (if state then "ON".toList else "OFF".toList)) 1 true))

/-- `None` or an address, as JSON. -/
def jsonSrc : Option Int → JVal
  | none => .null
  | some a => .num (.int a)

/-- The dictionary of cmqttd.py:237-242, 247-252, 258-263. -/
def stateDict (state : Str) (brightness : PyNum) (transition : Int) (src : Option Int) : JVal :=
  .obj [("state".toList, .str state), ("brightness".toList, .num brightness), ("transition".toList, .num (.int transition)),
        ("cbus_source_addr".toList, jsonSrc src)]

/-- cmqttd.py:235-243 `lighting_group_on`. -/
def lightingGroupOn (src : Option Int) (ga : Int) : Act :=
  Proc.andThen (publish (stateTopic ga) (stateDict "ON".toList (.int 255) 0 src)) fun _ => publishBinarySensor ga true

/-- cmqttd.py:245-253 `lighting_group_off`. -/
def lightingGroupOff (src : Option Int) (ga : Int) : Act :=
  Proc.andThen (publish (stateTopic ga) (stateDict "OFF".toList (.int 0) 0 src)) fun _ => publishBinarySensor ga false

/-- cmqttd.py:255-264 `lighting_group_ramp`. -/
def lightingGroupRamp (src : Option Int) (ga duration : Int) (level : PyNum) : Act :=
  Proc.andThen (publish (stateTopic ga) (stateDict "ON".toList level duration src)) fun _ =>
    publishBinarySensor ga (level.gtRat 0)

/-- The event handlers of a `CBusHandler` (cmqttd.py:87-118): where it does not
override a method of `PCIProtocol`, that one (which only logs). -/
def cbusHook (now : Nat → PyDateTime) (e : Event) : Act := fun s =>
  match e with
  | .lightingRamp src ga d l => if s.mqttApi then lightingGroupRamp src ga d l s else (s, [], .ok ())
  | .lightingOn src ga => if s.mqttApi then lightingGroupOn src ga s else (s, [], .ok ())
  | .lightingOff src ga => if s.mqttApi then lightingGroupOff src ga s else (s, [], .ok ())
  | .clockRequest _ => Proc.andThen (Client.clockDatetime now none) (fun _ => pure ()) s
  | e => Client.baseHook now e s

/-- `payload['state']` (cmqttd.py:148). -/
def getState : JVal → Py JVal
  | .obj d =>
    match dictGet d "state".toList with
    | some v => .ok v
    | none => .error .keyError
  | _ => .error .typeError

/-- `payload.get(key, default)`; only a `dict` gets this far. -/
def getInt (u : UniTable) (payload : JVal) (key : Str) (default : Int) : Py Int :=
  match payload with
  | .obj d =>
    match dictGet d key with
    | some v => u.intOfJson v
    | none => .ok default
  | _ => .error .attributeError

/-- The values computed in cmqttd.py:148-156: whether to switch on, the brightness
(the float `0.` if it was negative) and the transition time. -/
def readPayload (u : UniTable) (payload : JVal) : Py (Bool × PyNum × Int) := do
  let st ← getState payload
  let on ← match st with
    | .str s => pure (u.upperStr s == "ON".toList)
    | _ => throw PyErr.attributeError
  let b ← getInt u payload "brightness".toList 255
  let brightness : PyNum := if b < 0 then .flt 0 else .int b
  let brightness : PyNum := if brightness.gtRat 255 then .int 255 else brightness
  let t ← getInt u payload "transition".toList 0
  let transition := if t < 0 then 0 else t
  return (on, brightness, transition)

/-- cmqttd.py:159-171. -/
def actOnPayload (ga : Int) (on : Bool) (brightness : PyNum) (transition : Int) : Act :=
  if on then
    if brightness = .int 255 ∧ transition = 0 then
      Proc.andThen (Client.lightingGroupOn [ga]) fun _ => lightingGroupOn none ga
    else
      Proc.andThen (Client.lightingGroupRamp ga transition brightness) fun _ =>
        lightingGroupRamp none ga transition brightness
  else
    Proc.andThen (Client.lightingGroupOff [ga]) fun _ => lightingGroupOff none ga

/-- cmqttd.py:129-171 `on_message`. `loads` is `json.loads`; `none` stands for any
exception it raises, all of which are caught. -/
def onMessage (u : UniTable) (loads : Bytes → Option JVal) (topic : Str) (payload : Bytes) : Act :=
  if !(topic.startsWith lightTopicPrefix && topic.endsWith topicSetSuffix) then pure ()
  else
    match getTopicGroupAddress u topic with
    | .error .valueError => pure ()
    | .error e => Proc.raise e
    | .ok ga =>
      match loads payload with
      | none => pure ()
      | some v =>
        match readPayload u v with
        | .error e => Proc.raise e
        | .ok (on, brightness, transition) => actOnPayload ga on brightness transition

/-- A string in JSON. -/
def js (s : String) : JVal := .str s.toList

/-- `'C-Bus Light %03d'`. -/
def defaultName (ga : Int) : Str := "C-Bus Light ".toList ++ pad3 ga

/-- cmqttd.py:181-193. -/
def metaConfig : JVal :=
  .obj [("~".toList, .str metaTopic), ("name".toList, js "cmqttd"), ("unique_id".toList, js "cmqttd"),
    ("stat_t".toList, .str ('~' :: topicStateSuffix)),
    ("device".toList, .obj [("identifiers".toList, .arr [js "cmqttd"]),
      ("sw_version".toList, js "cmqttd https://github.com/micolous/cbus"), ("name".toList, js "cmqttd"),
      ("manufacturer".toList, js "micolous"), ("model".toList, js "libcbus")])]

/-- cmqttd.py:204-212, 219-227. -/
def deviceConfig (kind : Str) (ga : Int) : JVal :=
  .obj [("identifiers".toList, .arr [.str (kind ++ intStr ga)]),
    ("connections".toList, .arr [.arr [js "cbus_group_address", .str (intStr ga)]]),
    ("sw_version".toList, js "cmqttd https://github.com/micolous/cbus"), ("name".toList, .str (defaultName ga)),
    ("manufacturer".toList, js "Clipsal"), ("model".toList, js "C-Bus Lighting Application"),
    ("via_device".toList, js "cmqttd")]

/-- cmqttd.py:197-213. -/
def lightConfig (name : Str) (ga : Int) : JVal :=
  .obj [("name".toList, .str name), ("unique_id".toList, .str ("cbus_light_".toList ++ intStr ga)),
    ("cmd_t".toList, .str (setTopic ga)), ("stat_t".toList, .str (stateTopic ga)), ("schema".toList, js "json"),
    ("brightness".toList, .bool true), ("device".toList, deviceConfig "cbus_light_".toList ga)]

/-- cmqttd.py:215-228. -/
def binSensorConfig (name : Str) (ga : Int) : JVal :=
  .obj [("name".toList, .str (name ++ " (as binary sensor)".toList)),
    ("unique_id".toList, .str ("cbus_bin_sensor_".toList ++ intStr ga)),
    ("stat_t".toList, .str (binSensorStateTopic ga)), ("device".toList, deviceConfig "cbus_bin_sensor_".toList ga)]

/-- The loop body of cmqttd.py:195-228. -/
def publishLight (labels : List (Int × Str)) (ga : Int) : Act :=
  let name := (dictGet labels ga).getD (defaultName ga)
  Proc.andThen (publish (confTopic ga) (lightConfig name ga)) fun _ =>
    publish (binSensorConfTopic ga) (binSensorConfig name ga)

/-- The loop of cmqttd.py:195-228. -/
def publishLights (labels : List (Int × Str)) : List Int → Act
  | [] => pure ()
  | ga :: gas => Proc.andThen (publishLight labels ga) fun _ => publishLights labels gas

/-- cmqttd.py:178-228 `publish_all_lights`. -/
def publishAllLights (labels : List (Int × Str)) : Act :=
  Proc.andThen (publish (metaTopic ++ topicConfSuffix) metaConfig) fun _ => publishLights labels gaRange

/-- cmqttd.py:123-127 `on_connect`, whose parameters but `userdata` are unused. -/
def onConnect (labels : List (Int × Str)) : Act :=
  Proc.andThen (Proc.modify fun s => { s with mqttApi := true }) fun _ =>
  Proc.andThen (Proc.emit (.ext (.subscribe (gaRange.map fun ga => (setTopic ga, 2))))) fun _ =>
  publishAllLights labels

/-- cmqttd.py:123-127 `on_connect` with its `rc`, the return code of the broker's
answer: 0 if it accepts the connection. -/
def onConnack (_rc : Nat) (labels : List (Int × Str)) : Act := onConnect labels

end Mqtt

/-- cmqttd.py:267-271 `read_auth`: the user name and the password that are set. The
file is given by its text, in which universal newlines have become `'\n'`.
`readline` returns the rest of the text up to and including the next one. -/
def readline (f : Str) : Str × Str :=
  let l := f.takeWhile (· ≠ '\n')
  match f.dropWhile (· ≠ '\n') with
  | [] => (l, [])
  | c :: r => (l ++ [c], r)

/-- cmqttd.py:267-271 `read_auth`. -/
def readAuth (u : UniTable) (f : Str) : Str × Str :=
  let (l1, f1) := readline f
  let (l2, _) := readline f1
  (u.strip l1, u.strip l2)

end CBus
