import Verif.Model.Text

/-! # Discovery of network interfaces

`experiments/cni_discovery.py`. The socket and what is printed are not modelled. -/

namespace CBus.Discovery

/-- `CBUS_DISCOVERY_QUERY`, cni_discovery.py:36. -/
def query : Bytes := [0xcb, 0x80, 0, 0]

/-- `CBUS_DISCOVERY_REPLY`, cni_discovery.py:37. -/
def reply : Bytes := [0xcb, 0x81, 0, 0]

/-- A datagram that is sent. -/
structure Datagram where
  data : Bytes
  host : Str
  port : Nat
  deriving DecidableEq, Repr

/-- The text of the answer, cni_discovery.py:68-79. -/
def answerText : Bytes :=
  ("CB810000" ++ "20E8F552" ++ "81010001" ++ "05" ++ "810B0002" ++ "2721" ++ "811D0001" ++ "00" ++ "80010002661E").toList.map fun c => UInt8.ofNat c.toNat

/-- `datagramReceived` and `write`, cni_discovery.py:55-95. -/
def datagramReceived (data : Bytes) (host : Str) (port : Nat) : Py (List Datagram) :=
  let messageType := data.take 4
  if messageType = query then
    match b16decode answerText with
    | .ok d => .ok [⟨d, host, port⟩]
    | .error e => .error e
  else if messageType = reply then .ok []
  else .ok []

end CBus.Discovery
