import Verif.Model.Broker

/-! # The connection to the broker in time

`AsyncioHelper.misc_loop` (paho_asyncio.py:30-35) calls `loop_misc` of the MQTT client, and again
a second after each call that succeeds; `_main` gives the client the keepalive
(cmqttd.py:467). What is done with the two is up to paho-mqtt 1.5.0 (`client.py`); assumed are
its functions `_check_keepalive`, `loop_misc`, `_packet_write` and `_packet_read` (which note the
time of the last packet sent and received), `_send_pingreq`, `_handle_pingresp` and
`_handle_connack`.

Time is in milliseconds. Simplifications: a call takes no time (`time_func` gives the same time
throughout), packets are sent and received whole, and a broker that does not accept the
connection is not modelled (the client then closes the socket). Calls that find an error
of the socket are in `Model/Broker`. -/

namespace CBus
namespace Daemon

/-- What the client knows of its connection: whether there is a socket, whether the broker
has accepted, the times of the last packets and of the ping that is not answered. -/
structure BrokerLink where
  sock : Bool
  connected : Bool
  lastOut : Nat
  lastIn : Nat
  ping : Option Nat
  deriving DecidableEq, Repr

/-- What happens: `loop_misc` is called, another packet is sent, another packet is received,
and the answers to CONNECT and PINGREQ are received. -/
inductive LinkEvent
  | wake | sent | received | connack | pong
  deriving DecidableEq, Repr

/-- What can be seen of it. -/
inductive Seen
  | woke | sent | received | connack | pong | ping | closed
  deriving DecidableEq, Repr

/-- `connect`: the socket is open and CONNECT is sent, cmqttd.py:467. -/
def BrokerLink.start (now : Nat) : BrokerLink := ⟨true, false, now, now, none⟩

/-- `_check_keepalive`, called by `loop_misc`. -/
def BrokerLink.checkKeepalive (keepalive : Nat) (l : BrokerLink) (now : Nat) : BrokerLink × List Seen :=
  if keepalive = 0 then (l, [])
  else if keepalive ≤ now - l.lastOut ∨ keepalive ≤ now - l.lastIn then
    if l.connected = true ∧ l.ping = none then
      ({ l with ping := some now, lastOut := now, lastIn := now }, [.ping])
    else ({ l with sock := false }, [.closed])
  else (l, [])

/-- `loop_misc` with a socket, called by paho_asyncio.py:31. -/
def BrokerLink.misc (keepalive : Nat) (l : BrokerLink) (now : Nat) : BrokerLink × List Seen :=
  let r := l.checkKeepalive keepalive now
  if r.1.sock then
    match r.1.ping with
    | some p => if keepalive ≤ now - p then ({ r.1 with sock := false }, r.2 ++ [.closed]) else r
    | none => r
  else r

/-- One event. Without a socket nothing is sent, received or called, paho_asyncio.py:20-22. -/
def BrokerLink.step (keepalive : Nat) (l : BrokerLink) (now : Nat) (e : LinkEvent) : BrokerLink × List Seen :=
  if l.sock then
    match e with
    | .wake => ((l.misc keepalive now).1, .woke :: (l.misc keepalive now).2)
    | .sent => ({ l with lastOut := now }, [.sent])
    | .received => ({ l with lastIn := now }, [.received])
    | .connack => ({ l with lastIn := now, connected := true }, [.connack])
    | .pong => ({ l with lastIn := now, ping := none }, [.pong])
  else (l, [])

/-- A history of events with their times. -/
def BrokerLink.run (keepalive : Nat) : BrokerLink → List (Nat × LinkEvent) → BrokerLink
  | l, [] => l
  | l, (now, e) :: h => BrokerLink.run keepalive (l.step keepalive now e).1 h

/-- What is seen, and when. -/
def BrokerLink.log (keepalive : Nat) : BrokerLink → List (Nat × LinkEvent) → List (Nat × Seen)
  | _, [] => []
  | l, (now, e) :: h =>
    (l.step keepalive now e).2.map (fun x => (now, x)) ++ BrokerLink.log keepalive (l.step keepalive now e).1 h

end Daemon
end CBus
