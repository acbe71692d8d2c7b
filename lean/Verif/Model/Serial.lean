import Verif.Model.Client

/-! # A client on a serial port

What pyserial-asyncio 0.4 (`SerialTransport._read_ready`) and the event loop do with a
`PCIProtocol` that is connected through a serial port: each piece that has arrived is handed to
`data_received`; an exception there is logged by the event loop (`Handle._run`), and the next
piece is handed over as if nothing had been. -/

namespace CBus.Client
variable {π : Type}

/-- Piece after piece (buffered_protocol.py:63-86, cmqttd.py:442-444). -/
def serialSession (hook : Event → Proc Client (Eff π) Unit) : List Bytes → Conn Client → Conn Client × List (Eff π)
  | [], c => (c, [])
  | d :: ds, c =>
    let r := dataReceived hook d c
    let r' := serialSession hook ds r.1
    (r'.1, r.2.1 ++ r'.2)

end CBus.Client
