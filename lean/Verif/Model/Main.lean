import Verif.Model.Dump
import Verif.Model.Mqtt

/-! # Starting the daemon

`_main` of `/repo/cbus/daemon/cmqttd.py` after the command line is parsed, and the
glue between the MQTT client and the event loop, `/repo/cbus/paho_asyncio.py`.
Elsewhere: the parser of the command line (`Args`), logging (`Logging`), connections that
fail (`Startup`), the encoding of the file with the password (`AuthFile`). -/

namespace CBus

/-- `s.split(sep, n)` with a separator of one character. -/
def splitMax (sep : Char) : Nat → Str → List Str
  | 0, s => [s]
  | n + 1, s =>
    match s.dropWhile (· ≠ sep) with
    | [] => [s]
    | _ :: r => s.takeWhile (· ≠ sep) :: splitMax sep n r

namespace Daemon
open Cbz

/-- The parsed options, cmqttd.py:310-419. `argparse` sees to it that exactly
one of `serial` and `tcp` is given. Files are given by their contents. -/
structure Options where
  brokerAddress : Str
  brokerPort : Int := 0
  keepalive : Int := 60
  disableTls : Bool := false
  auth : Option Str := none
  ca : Option Str := none
  clientCert : Option Str := none
  clientKey : Option Str := none
  serial : Option Str := none
  tcp : Option Str := none
  timesync : Int := 300
  noClock : Bool := false
  project : Option OpenFile := none

/-- What `_main` does to the world, in order. -/
inductive Act
  | openSerial (device : Str)
  | openTcp (host : Str) (port : Int)
  | credentials (user pass : Str)
  | tls (ca certfile keyfile : Option Str)
  | connectBroker (address : Str) (port : Int) (keepalive : Int)
  deriving DecidableEq, Repr

/-- The arguments of `CBusHandler`. -/
structure Handler where
  timesync : Int
  clock : Bool
  labels : List (Option Int × Str)
  deriving DecidableEq, Repr

/-- How it ends: the command line is refused (cmqttd.py:421-423), an exception (`CBZException`
or another), or the daemon runs. -/
inductive End
  | usage | cbzError | raised (e : PyErr) | running (h : Handler)
  deriving DecidableEq, Repr

/-- `bool(x)` of an option with a text. -/
def truthy : Option Str → Bool
  | some (_ :: _) => true
  | _ => false

/-- A keyword argument that is passed on if it is true. -/
def ifTrue (x : Option Str) : Option Str := if truthy x then x else none

/-- `x or y` of integers. -/
def orInt (x y : Int) : Int := if x = 0 then y else x

/-- The connection to the PCI, cmqttd.py:442-448. If both options are false `protocol` is
unbound (`UnboundLocalError`, a `NameError`). -/
def connectPci (env : Env) (o : Options) : Py Act :=
  if truthy o.serial then .ok (.openSerial (o.serial.getD []))
  else if truthy o.tcp then
    match splitMax ':' 2 (o.tcp.getD []) with
    | host :: port :: _ =>
      match env.uni.intOf port with
      | .ok p => .ok (.openTcp host p)
      | .error e => .error e
    | _ => .error .indexError
  else .error .nameError

/-- The connection to the broker, cmqttd.py:450-467. -/
def connectBroker (env : Env) (o : Options) : List Act :=
  (match o.auth with
    | some text => [.credentials (readAuth env.uni text).1 (readAuth env.uni text).2]
    | none => []) ++
  (if o.disableTls then [.connectBroker o.brokerAddress (orInt o.brokerPort 1883) o.keepalive]
   else
    [.tls (ifTrue o.ca) (ifTrue o.clientCert) (if truthy o.clientCert then o.clientKey else none),
      .connectBroker o.brokerAddress (orInt o.brokerPort 8883) o.keepalive])

/-- `_main`, cmqttd.py:421-469. -/
def main (env : Env) (o : Options) : List Act × End :=
  if truthy o.clientCert ≠ truthy o.clientKey then ([], .usage)
  else
    let go (labels : List (Option Int × Str)) : List Act × End :=
      match connectPci env o with
      | .error e => ([], .raised e)
      | .ok act => (act :: connectBroker env o, .running ⟨o.timesync, !o.noClock, labels⟩)
    match o.project with
    | none => go []
    | some f =>
      match readCbzLabels env f with
      | none => ([], .cbzError)
      | some (.error e) => ([], .raised e)
      | some (.ok labels) => go labels

/-! ## `AsyncioHelper` -/

/-- The sockets that the event loop reads and writes, the running tasks of
`misc_loop` (numbered) and the attribute `misc`. -/
structure Helper where
  readers : List Nat := []
  writers : List Nat := []
  tasks : List Nat := []
  next : Nat := 0
  misc : Option Nat := none
  deriving DecidableEq, Repr

/-- What happens: the callbacks of the MQTT client for a socket, and a task that
wakes up and calls `loop_misc`, which succeeds or not. -/
inductive HEvent
  | opened (sock : Nat)
  | closed (sock : Nat)
  | registerWrite (sock : Nat)
  | unregisterWrite (sock : Nat)
  | wake (task : Nat) (success : Bool)
  deriving DecidableEq, Repr

/-- Adding to a set. -/
def insertNew (l : List Nat) (x : Nat) : List Nat := if x ∈ l then l else l ++ [x]

/-- paho_asyncio.py:7-35. A cancelled task does not run again. -/
def Helper.step (h : Helper) : HEvent → Py Helper
  -- 16-18
  | .opened s => .ok { h with readers := insertNew h.readers s, tasks := h.tasks ++ [h.next],
                              misc := some h.next, next := h.next + 1 }
  -- 20-22
  | .closed s =>
    match h.misc with
    | none => .error .attributeError
    | some t => .ok { h with readers := h.readers.filter (· ≠ s), tasks := h.tasks.filter (· ≠ t) }
  -- 24-25
  | .registerWrite s => .ok { h with writers := insertNew h.writers s }
  -- 27-28
  | .unregisterWrite s => .ok { h with writers := h.writers.filter (· ≠ s) }
  -- 30-35
  | .wake t success => .ok (if success then h else { h with tasks := h.tasks.filter (· ≠ t) })

/-- A history of events. -/
def Helper.run : Helper → List HEvent → Py Helper
  | h, [] => .ok h
  | h, e :: es =>
    match h.step e with
    | .ok h => h.run es
    | .error err => .error err

end Daemon
end CBus
