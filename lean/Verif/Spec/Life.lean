import Verif.Spec.Session
import Verif.Spec.Mqtt
import Verif.Spec.JsonText

/-! # What the daemon does with all that happens to it

Between the C-Bus connection and the broker: everything that can happen to `cmqttd`, in
any order, and for each of these exactly what it sends and how it is afterwards. -/

namespace CBus.Spec
open CBus

/-- What can happen to `cmqttd`: the C-Bus connection is made or lost, bytes arrive from
the PCI, the clock task takes another turn, the broker connects, a message arrives from
the broker. -/
inductive DaemonStep
  | made
  | lost
  | receive (d : Bytes)
  | tick
  | broker (labels : List (Int × Str))
  | message (topic : Str) (payload : Bytes)

/-- A topic on which a message is for a light: the text behind `cbus_` up to the next
slash is a number from 0 to 255, and the topic ends with `/set`. -/
def ForLight (u : UniTable) (topic : Str) (ga : Int) : Prop :=
  ∃ number rest, topic = "homeassistant/light/cbus_".toList ++ number ++ rest ∧ '/' ∉ number ∧
    (rest = [] ∨ rest.head? = some '/') ∧ "/set".toList <:+ topic ∧ DecimalText u number ga ∧ 0 ≤ ga ∧ ga ≤ 255

/-- Bytes that a byte order mark or zeros near the beginning show not to be UTF-8. -/
def Marked (b : Bytes) : Prop :=
  [0xef, 0xbb, 0xbf] <+: b ∨ [0xfe, 0xff] <+: b ∨ [0xff, 0xfe] <+: b ∨ [0, 0, 0xfe, 0xff] <+: b ∨
    (b.length = 2 ∨ 4 ≤ b.length) ∧ (b[0]? = some 0 ∨ b[1]? = some 0)

/-- The JSON value that bytes stand for. They are a text in UTF-8, or in what else Python
takes them for. -/
def Payload (env : Json.JEnv) (b : Bytes) (v : JVal) : Prop :=
  (∃ s, b = Json.utf8 s ∧ Json.JsonText env s v) ∨
    ((Marked b ∨ ∀ s, b ≠ Json.utf8 s) ∧ ∃ s, env.other b = some s ∧ Json.JsonText env s v)

/-- The bytes of the command that a set message asks for: switch off, switch on, or ramp
in the shortest time that is long enough. -/
inductive SetBytes (m : SetMessage) (ga : Int) : Bytes → Prop
  | off (h : m.on = false) : SetBytes m ga [0x05, 0x38, 0x00, 0x01, byteOf ga]
  | on (h : m.on = true) (hb : 255 ≤ m.brightness) (ht : m.transition ≤ 0) :
      SetBytes m ga [0x05, 0x38, 0x00, 0x79, byteOf ga]
  | ramp (k : Nat) (q : Int) (h : m.on = true) (hb : m.brightness < 255 ∨ 0 < m.transition)
      (hq : IsQuantised (max 0 m.transition) q) (hk : rampDurations[k]? = some q) :
      SetBytes m ga [0x05, 0x38, 0x00, byteOf (rampCode k), byteOf ga, byteOf (clamp m.brightness)]

/-- The messages that follow such a command. -/
inductive Answers (m : SetMessage) (ga : Int) : List MqttEff → Prop
  | off (h : m.on = false) : Answers m ga [stateMessage ga false (.int 0) 0 none, sensorMessage ga false]
  | on (h : m.on = true) (hb : 255 ≤ m.brightness) (ht : m.transition ≤ 0) :
      Answers m ga [stateMessage ga true (.int 255) 0 none, sensorMessage ga true]
  | ramp (h : m.on = true) (hb : m.brightness < 255 ∨ 0 < m.transition) :
      Answers m ga [stateMessage ga true (.int (clamp m.brightness)) (max 0 m.transition) none,
        sensorMessage ga (0 < m.brightness)]

/-- What is published for the lights: two configurations for each. -/
inductive Configures (labels : List (Int × Str)) : List Int → List MqttEff → Prop
  | nil : Configures labels [] []
  | cons (ga : Int) (gas : List Int) (v w : List (Str × JVal)) (o : List MqttEff)
      (hv : IsLightConfig (lightName labels ga) ga v) (hw : IsSensorConfig (lightName labels ga) ga w)
      (h : Configures labels gas o) :
      Configures labels (ga :: gas) (.publish (topicText .lightConfig ga).toList (.json (.obj v)) 1 true ::
        .publish (topicText .sensorConfig ga).toList (.json (.obj w)) 1 true :: o)

/-- What is sent to a broker that has just connected: the topics that the daemon wants to
hear of, its own configuration and that of all lights. -/
inductive Announces (labels : List (Int × Str)) : List MqttEff → Prop
  | all (v : List (Str × JVal)) (o : List MqttEff) (hv : IsDaemonConfig v) (h : Configures labels groupAddresses o) :
      Announces labels (.subscribe (groupAddresses.map fun ga => ((topicText .lightSet ga).toList, 2)) ::
        .publish "homeassistant/binary_sensor/cbus_cmqttd/config".toList (.json (.obj v)) 1 true :: o)

/-- What there is to know about a running daemon. -/
structure DaemonState where
  connected : Bool
  broker : Bool
  future : FutureState
  buffer : Bytes
  count : Count

/-- What `connection_made` sends. -/
def setUp (timesync : Int) (codes : Nat) : List (Eff MqttEff) :=
  [.write (ascii "~\r"), .write (ascii "~\r"), .write (ascii "~\r"),
    .write (ascii "A3210038" ++ [codeAt codes, 0x0d]), .write (ascii "A342000E" ++ [codeAt (codes + 1), 0x0d]),
    .write (ascii "A3300059" ++ [codeAt (codes + 2), 0x0d])] ++ if timesync = 0 then [] else [.startTimesync]

/-- One step: what the daemon does and how it ends. `read` says what a payload means. -/
inductive Does (u : UniTable) (read : Bytes → JVal → Prop) (now : Nat → PyDateTime) (timesync : Int) :
    DaemonStep → DaemonState → List (Eff MqttEff) → DaemonState → Py Unit → Prop
  | made (d : DaemonState) : Does u read now timesync .made d (setUp timesync d.count.codes)
      { d with connected := true, count := ⟨d.count.codes + 3, d.count.reads⟩ } (.ok ())
  | lost (d : DaemonState) (h : d.future = .pending) :
      Does u read now timesync .lost d [] { d with connected := false, future := .done } (.ok ())
  | lostAgain (d : DaemonState) (h : d.future = .done) :
      Does u read now timesync .lost d [] { d with connected := false } (.error .invalidState)
  | lostUnseen (d : DaemonState) (h : d.future = .absent) :
      Does u read now timesync .lost d [] { d with connected := false } (.error .attributeError)
  | receive (d : DaemonState) (b b' : Bytes) (o : List (Eff MqttEff)) (k : Count) (r : Py Unit)
      (h : Converses ⟨true, fun e => if d.broker then eventMessages e else [], now⟩ d.buffer d.count [b] o b' k r) :
      Does u read now timesync (.receive b) d o { d with buffer := b', count := k } r
  | tick (d : DaemonState) (line : Bytes) (hc : d.connected = true)
      (hl : ClockLine (now d.count.reads) (codeAt d.count.codes) line) :
      Does u read now timesync .tick d [.write line]
        { d with count := ⟨d.count.codes + 1, d.count.reads + 1⟩ } (.ok ())
  | tickDown (d : DaemonState) (hc : d.connected = false) :
      Does u read now timesync .tick d [] { d with count := ⟨d.count.codes, d.count.reads + 1⟩ } (.error .ioError)
  | broker (d : DaemonState) (labels : List (Int × Str)) (o : List MqttEff) (h : Announces labels o) :
      Does u read now timesync (.broker labels) d (o.map .ext) { d with broker := true } (.ok ())
  /-- on another topic -/
  | elsewhere (d : DaemonState) (topic : Str) (payload : Bytes) (h : ∀ ga, ¬ ForLight u topic ga) :
      Does u read now timesync (.message topic payload) d [] d (.ok ())
  /-- not JSON -/
  | unreadable (d : DaemonState) (topic : Str) (payload : Bytes) (h : ∀ v, ¬ read payload v) :
      Does u read now timesync (.message topic payload) d [] d (.ok ())
  /-- JSON, but no set message -/
  | meaningless (d : DaemonState) (topic : Str) (payload : Bytes) (ga : Int) (v : JVal) (e : PyErr)
      (ht : ForLight u topic ga) (hv : read payload v) (he : MessageError u v e) :
      Does u read now timesync (.message topic payload) d [] d (.error e)
  /-- without a C-Bus connection -/
  | down (d : DaemonState) (topic : Str) (payload : Bytes) (ga : Int) (v : JVal) (m : SetMessage)
      (ht : ForLight u topic ga) (hv : read payload v) (hm : Means u v m) (hc : d.connected = false) :
      Does u read now timesync (.message topic payload) d [] d (.error .ioError)
  /-- switching on with a negative brightness, see C61 -/
  | negative (d : DaemonState) (topic : Str) (payload : Bytes) (ga : Int) (v : JVal) (m : SetMessage)
      (ht : ForLight u topic ga) (hv : read payload v) (hm : Means u v m) (hc : d.connected = true)
      (hb : m.brightness < 0) (ho : m.on = true) :
      Does u read now timesync (.message topic payload) d [] d (.error .typeError)
  | message (d : DaemonState) (topic : Str) (payload : Bytes) (ga : Int) (v : JVal) (m : SetMessage)
      (body digits : Bytes) (o : List MqttEff) (ht : ForLight u topic ga) (hv : read payload v) (hm : Means u v m)
      (hc : d.connected = true) (hb : 0 ≤ m.brightness ∨ m.on = false) (h : SetBytes m ga body)
      (hs : Spelled true body digits) (ho : Answers m ga o) :
      Does u read now timesync (.message topic payload) d
        (.write (0x5c :: digits ++ [codeAt d.count.codes, 0x0d]) :: o.map .ext)
        { d with count := ⟨d.count.codes + 1, d.count.reads⟩ } (.ok ())

/-- Step after step: what was done in each of them and how it ended. -/
inductive Lives (u : UniTable) (read : Bytes → JVal → Prop) (now : Nat → PyDateTime) (timesync : Int) :
    List DaemonStep → DaemonState → List (List (Eff MqttEff) × Py Unit) → DaemonState → Prop
  | nil (d : DaemonState) : Lives u read now timesync [] d [] d
  | cons (x : DaemonStep) (xs : List DaemonStep) (d d1 d2 : DaemonState) (o : List (Eff MqttEff)) (r : Py Unit)
      (os : List (List (Eff MqttEff) × Py Unit)) (h : Does u read now timesync x d o d1 r)
      (hr : Lives u read now timesync xs d1 os d2) : Lives u read now timesync (x :: xs) d ((o, r) :: os) d2

/-- Bytes arrive only over a connection. -/
inductive OnlyConnected : Bool → List DaemonStep → Prop
  | nil (c : Bool) : OnlyConnected c []
  | made (c : Bool) (xs : List DaemonStep) (h : OnlyConnected true xs) : OnlyConnected c (.made :: xs)
  | lost (c : Bool) (xs : List DaemonStep) (h : OnlyConnected false xs) : OnlyConnected c (.lost :: xs)
  | receive (d : Bytes) (xs : List DaemonStep) (h : OnlyConnected true xs) : OnlyConnected true (.receive d :: xs)
  | tick (c : Bool) (xs : List DaemonStep) (h : OnlyConnected c xs) : OnlyConnected c (.tick :: xs)
  | broker (c : Bool) (labels : List (Int × Str)) (xs : List DaemonStep) (h : OnlyConnected c xs) :
      OnlyConnected c (.broker labels :: xs)
  | message (c : Bool) (topic : Str) (payload : Bytes) (xs : List DaemonStep) (h : OnlyConnected c xs) :
      OnlyConnected c (.message topic payload :: xs)

end CBus.Spec
