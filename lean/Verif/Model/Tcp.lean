import Verif.Model.Client

/-! # A client over TCP

What asyncio does with a `PCIProtocol` that is connected through a socket (CPython 3.8,
Lib/asyncio/selector_events.py: `_SelectorSocketTransport._read_ready__data_received`,
`_fatal_error`, `_force_close`): each piece that has arrived is handed to
`data_received`, and an exception there is fatal: nothing more is read from the socket
and `connection_lost` is called. The serial transport of pyserial-asyncio has no such
handler, so that there the event loop logs the exception and goes on. -/

namespace CBus.Client
variable {π : Type}

/-- One piece (buffered_protocol.py:63-86, pciprotocol.py:95-97). -/
def tcpReceived (hook : Event → Proc Client (Eff π) Unit) (d : Bytes) (c : Conn Client) : Conn Client × List (Eff π) :=
  if c.st.connected then
    match dataReceived hook d c with
    | (c1, o1, .ok ()) => (c1, o1)
    | (c1, o1, .error _) => ({ c1 with st := (connectionLost (π := π) c1.st).1 }, o1 ++ (connectionLost c1.st).2.1)
  else (c, [])

/-- Piece after piece. -/
def tcpSession (hook : Event → Proc Client (Eff π) Unit) : List Bytes → Conn Client → Conn Client × List (Eff π)
  | [], c => (c, [])
  | d :: ds, c =>
    let r := tcpReceived hook d c
    let r' := tcpSession hook ds r.1
    (r'.1, r.2 ++ r'.2)

end CBus.Client
