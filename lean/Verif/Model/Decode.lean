import Verif.Model.Packet

/-! # `cbus/protocol/packet.py`

`decode_packet` is one Python function; it is split here at the points where
control can only continue downwards. -/

namespace CBus

/-- `c in HEX_CHARS`. -/
def isHex (c : UInt8) : Bool := hexChars.contains c

/-- Outcome of the transport-layer part of `decode_packet` (packet.py:83-141):
either the function has returned, or there is a line (without its end marker)
and the number of bytes consumed including the marker. -/
inductive Framed
  | result (p : Option Packet) (n : Nat)
  | line (data : Bytes) (consumed : Nat)
  deriving DecidableEq, Repr

/-- packet.py:83-105, 128-141 with `from_pci=True`. The `ConfirmationPacket`
constructor cannot raise here since the code byte has just been tested
(packet.py:100-103). -/
def framePci (data : Bytes) : Framed :=
  match data with
  | [] => .result none 0
  | c :: rest =>
    if c = 0x2b then .result (some .powerOn) 1
    else if c = 0x21 then .result (some .pciError) 1
    else if data.length < minMessageSize then .result none 0
    else if c ∈ confirmationCodes then
      .result (some (.confirmation [c] (rest.head? == some 0x2e))) 2
    else
      match find endResponse data with
      | none => .result none 0
      | some e => .line (data.take e) (e + endResponse.length)

/-- packet.py:83-84, 107-141 with `from_pci=False`. -/
def frameClient (data : Bytes) : Framed :=
  match data with
  | [] => .result none 0
  | _ =>
    if [0x7e].isPrefixOf data then .result (some .reset) 1
    else if [0x6e, 0x75, 0x6c, 0x6c].isPrefixOf data then .result none 4
    else if ([0x7c] ++ endCommand).isPrefixOf data ∨ ([0x7c, 0x7c] ++ endCommand).isPrefixOf data then
      match find endCommand data with
      | some e => .result (some .smartConnect) (e + 1)
      | none => .result (some .smartConnect) 0
    else
      match find endCommand data, find [0x3f] data with
      | some nlp, some qp =>
        if qp < nlp then .result none (qp + 1)
        else .line (data.take nlp) (nlp + endCommand.length)
      | some nlp, none => .line (data.take nlp) (nlp + endCommand.length)
      | none, _ => .result none 0

/-- packet.py:221-246, the body of the `try` block that picks a decoder.
`dmCal` is the local variable `device_managment_cal`. A bare CAL comes with its
own extra consumption (packet.py:226-228). -/
def dispatch (dat : DAT) (dp dmCal : Bool) (data : Bytes) (checksum : Bool) (prio : Prio) :
    Py (Packet × Nat) :=
  if dp then do
    let p ← decodeDM data checksum prio
    return (.dm p, 0)
  else if dmCal then do
    let (c, n) ← decodeCal data
    return (.cal c, n)
  else match dat with
    | .pp => do
      let p ← decodePP data checksum prio
      return (.pp p, 0)
    | .pm => do
      let p ← decodePM data checksum prio
      return (.pm p, 0)
    | .ppm => .error .notImplemented
    | .unset => .error .notImplemented

/-- packet.py:248-253: attaching confirmation and source address. A bare CAL
has already been returned at line 228. -/
def attach (fromPci : Bool) (conf : Option UInt8) (src : Option UInt8) (p : Packet) : Packet :=
  if !fromPci then
    match p with
    | .pm q => .pm { q with conf := conf, src := none }
    | .pp q => .pp { q with conf := conf, src := none }
    | .dm q => .dm { q with conf := conf, src := none }
    | q => q
  else
    match src with
    | some s =>
      if s ≠ 0 then
        match p with
        | .pm q => .pm { q with src := some s.toNat, conf := none }
        | .pp q => .pp { q with src := some s.toNat, conf := none }
        | .dm q => .dm { q with src := some s.toNat, conf := none }
        | q => q
      else p
    | none => p

/-- packet.py:200-257: flags, source address, payload. Every exception inside
the `try` becomes an `InvalidPacket` whose payload is the current value of
`data`. -/
def decodeBody (data : Bytes) (consumed : Nat) (checksum fromPci dmCal : Bool)
    (conf : Option UInt8) : Py (Option Packet × Nat) :=
  match data with
  | [] => .error .indexError
  | flags :: data1 =>
    match DAT.ofCode (flags &&& 0x07) with
    | .error e => .ok (some (.invalid data e), consumed)
    | .ok dat =>
      let dp := flags &&& 0x20 == 0x20
      let prio := Prio.ofBits (flags >>> 6 &&& 0x03)
      if fromPci then
        match data1 with
        | [] => .ok (some (.invalid data1 .indexError), consumed)
        | s :: data2 =>
          match dispatch dat dp dmCal data2 checksum prio with
          | .error e => .ok (some (.invalid data2 e), consumed)
          | .ok (p, n) => .ok (some (attach true conf (some s) p), consumed + n)
      else
        match dispatch dat dp dmCal data1 checksum prio with
        | .error e => .ok (some (.invalid data1 e), consumed)
        | .ok (p, n) => .ok (some (attach false conf none p), consumed + n)

/-- packet.py:183-198: checksum. -/
def decodeRaw (data : Bytes) (consumed : Nat) (checksum strict fromPci dmCal : Bool)
    (conf : Option UInt8) : Py (Option Packet × Nat) :=
  if checksum then
    match validateChecksum data with
    | .error e => .error e
    | .ok valid =>
      if !valid && strict then .ok (some (.invalid data .valueError), consumed)
      else decodeBody data.dropLast consumed checksum fromPci dmCal conf
  else decodeBody data consumed checksum fromPci dmCal conf

/-- packet.py:175-181: base16. -/
def decodeHex (data : Bytes) (consumed : Nat) (checksum strict fromPci dmCal : Bool)
    (conf : Option UInt8) : Py (Option Packet × Nat) :=
  if data.all isHex then
    match b16decode data with
    | .error e => .error e
    | .ok raw => decodeRaw raw consumed checksum strict fromPci dmCal conf
  else .ok (some (.invalid data .valueError), consumed)

/-- packet.py:158-173: the optional confirmation code at the end of a command. -/
def decodeConf (data : Bytes) (consumed : Nat) (checksum strict dmCal : Bool) :
    Py (Option Packet × Nat) :=
  match data.getLast? with
  | none => .error .indexError
  | some l =>
    if isHex l then decodeHex data consumed checksum strict false dmCal none
    else if l ∉ confirmationCodes ∧ strict = true then
      .ok (some (.invalid data .valueError), consumed)
    else decodeHex data.dropLast consumed checksum strict false dmCal (some l)

/-- packet.py:143-173: an extracted line. -/
def decodeLine (line : Bytes) (consumed : Nat) (checksum strict fromPci : Bool) :
    Py (Option Packet × Nat) :=
  match line with
  | [] => .ok (none, consumed)
  | c :: rest =>
    if fromPci then decodeHex line consumed checksum strict true false none
    else if c = 0x40 then decodeConf rest consumed false strict true
    else if c = 0x5c then decodeConf rest consumed checksum strict false
    else decodeConf line consumed checksum strict true

/-- packet.py:43-257 `decode_packet`. -/
def decodePacket (data : Bytes) (checksum : Bool := true) (strict : Bool := true)
    (fromPci : Bool := true) : Py (Option Packet × Nat) :=
  match (if fromPci then framePci data else frameClient data) with
  | .result p n => .ok (p, n)
  | .line l consumed => decodeLine l consumed checksum strict fromPci

end CBus
