import Verif.Model.Server

/-! # The simulated PCI as a program

`main` of `cbus/protocol/pciserverprotocol.py`: `create_server` makes a `PCIServerProtocol`
for each connection. An exception in `data_received` is fatal for its connection
(see `Model/Tcp.lean`) and for nothing else. What `random.randint` returns is arbitrary
for each of the connections. -/

namespace CBus.Server

/-- What happens to the program: a client connects, sends a piece, or leaves. Connections are
told apart by numbers; a number is used once. -/
inductive HostEvent
  | connects (n : Nat)
  | sends (n : Nat) (data : Bytes)
  | leaves (n : Nat)
  deriving DecidableEq, Repr

/-- A connection that is still to come, one that is open, and one that is over. -/
inductive Slot
  | fresh
  | isOpen (c : Conn Server)
  | closed

/-- `connection_made` of a new object, pciserverprotocol.py:60-86, 482-484. -/
def accept : Slot × List SEff :=
  let r := connectionMade {}
  (.isOpen ⟨[], r.1⟩, r.2.1)

/-- `data_received`, buffered_protocol.py:63-86, with the transport's handling of exceptions. -/
def receive (rand : Nat → Int) (d : Bytes) (c : Conn Server) : Slot × List SEff :=
  match dataReceived rand d c with
  | (c1, o1, .ok ()) => (.isOpen c1, o1)
  | (_, o1, .error _) => (.closed, o1)

/-- One event for the connection it concerns. -/
def onEvent (rand : Nat → Nat → Int) (slots : Nat → Slot) : HostEvent → Nat × Slot × List SEff
  | .connects n =>
    match slots n with
    | .fresh => (n, accept)
    | s => (n, s, [])
  | .sends n d =>
    match slots n with
    | .isOpen c => (n, receive (rand n) d c)
    | s => (n, s, [])
  | .leaves n =>
    match slots n with
    | .isOpen _ => (n, .closed, [])
    | s => (n, s, [])

/-- `main`, pciserverprotocol.py:479-489: all that is done, each time for one of the
connections. -/
def serveForever (rand : Nat → Nat → Int) : (Nat → Slot) → List HostEvent → List (Nat × SEff)
  | _, [] => []
  | slots, e :: es =>
    let r := onEvent rand slots e
    r.2.2.map (fun o => (r.1, o)) ++ serveForever rand (fun m => if m = r.1 then r.2.1 else slots m) es

end CBus.Server
