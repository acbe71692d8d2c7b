import Verif.Model.Main

/-! # The connection to the broker

Who calls the functions of the MQTT client: `_main` calls `connect` once (cmqttd.py:467), the event
loop calls `loop_read` and `loop_write` for the sockets registered with it and `loop_misc` from
the task of `AsyncioHelper` (paho_asyncio.py:16-35), and the handlers of `CBusHandler` call `publish`
(cmqttd.py:101-135). Nothing else is called: there is no `on_disconnect`, `reconnect`, `loop_start`
or `loop_forever` in the package.

Of the client itself (paho-mqtt 1.5, `client.py`) only this is modelled: without a socket `loop_read`,
`loop_write` and `publish` do nothing and `loop_misc` fails; with one, a function may ask for the
socket to be watched for writing or not any longer, or it may find that the connection is lost, and
then it closes the socket with the callbacks `on_socket_unregister_write` and `on_socket_close`; it
opens a socket in `connect` and `reconnect` only. -/

namespace CBus
namespace Daemon

/-- The client's socket and the helper. -/
structure Broker where
  sock : Option Nat := none
  helper : Helper := {}
  deriving DecidableEq, Repr

/-- Who calls a function of the client. -/
inductive Caller
  | reader (sock : Nat)
  | writer (sock : Nat)
  | misc (task : Nat)
  | publish
  deriving DecidableEq, Repr

/-- What the function comes to. -/
inductive Outcome
  | fine | wantWrite | wroteAll | lost
  deriving DecidableEq, Repr

/-- The caller exists. -/
def Broker.calls (b : Broker) : Caller → Bool
  | .reader s => b.helper.readers.contains s
  | .writer s => b.helper.writers.contains s
  | .misc t => b.helper.tasks.contains t
  | .publish => true

/-- Callbacks, one after the other. They do not raise in the order in which the client makes
them, see C87. -/
def Broker.callbacks (b : Broker) (es : List HEvent) : Broker :=
  match b.helper.run es with
  | .ok h => { b with helper := h }
  | .error _ => b

/-- `mqtt_client.connect`, cmqttd.py:467, with the socket it opens. -/
def Broker.connect (b : Broker) (sock : Nat) : Broker :=
  { b with sock := some sock }.callbacks [.opened sock]

/-- One call. -/
def Broker.step (b : Broker) (c : Caller) (o : Outcome) : Broker :=
  if b.calls c then
    match b.sock with
    | none =>
      match c with
      | .misc t => b.callbacks [.wake t false]
      | _ => b
    | some s =>
      match o with
      | .fine => b
      | .wantWrite => b.callbacks [.registerWrite s]
      | .wroteAll => b.callbacks [.unregisterWrite s]
      | .lost => { b with sock := none }.callbacks [.unregisterWrite s, .closed s]
  else b

/-- A history of calls. -/
def Broker.run : Broker → List (Caller × Outcome) → Broker
  | b, [] => b
  | b, (c, o) :: l => (b.step c o).run l

end Daemon
end CBus
