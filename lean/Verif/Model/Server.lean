import Verif.Model.Buffered

/-! # `cbus/protocol/pciserverprotocol.py` -/

namespace CBus

/-- The invocation of an event handler method (pciserverprotocol.py:224-337). -/
inductive SEvent
  | reset
  | lightingRamp (ga duration : Int) (level : PyNum)
  | lightingOn (ga : Int)
  | lightingOff (ga : Int)
  | lightingTerminate (ga : Int)
  | clockRequest
  | clockUpdate (val : ClockVal)
  | masterStatus (ga : Int)
  deriving DecidableEq, Repr

/-- Effects of a `PCIServerProtocol`, in order: a `transport.write` by `_send`, a
`transport.write` by `echo`, a packet put into the send queue by `_send_later`
(not visible outside), and an event handler call. -/
inductive SEff
  | write (data : Bytes)
  | echo (data : Bytes)
  | queued (data : Bytes)
  | event (e : SEvent)
  deriving DecidableEq, Repr

/-- State of a `PCIServerProtocol` (pciserverprotocol.py:61-73). `rngPos` counts
the calls of `random.randint` so far. -/
structure Server where
  connected : Bool := false
  basic : Bool := true
  connect : Bool := false
  checksum : Bool := false
  monitor : Bool := false
  idmon : Bool := false
  app1 : Int := 0xff
  app2 : Int := 0xff
  queue : List Bytes := []
  rngPos : Nat := 0
  deriving DecidableEq, Repr

namespace Server

/-- pciserverprotocol.py:88-90 `echo`. -/
def echo (data : Bytes) : Proc Server SEff Unit := fun s =>
  if s.basic then
    if s.connected then (s, [.echo data], .ok ()) else (s, [], .error .attributeError)
  else (s, [], .ok ())

/-- pciserverprotocol.py:339-350 `_serialize_packet`: a line end except after
confirmations. -/
def serialize (cmd : Packet) : Py Bytes :=
  match cmd.encodePacket with
  | .error e => .error e
  | .ok w =>
    match cmd with
    | .confirmation _ _ => .ok w
    | _ => .ok (w ++ endResponse)

/-- pciserverprotocol.py:361-373: write a serialised packet, then the queue. -/
def writeOut (w : Bytes) : Proc Server SEff Unit := fun s =>
  if s.connected then
    ({ s with queue := [] }, .write w :: s.queue.map .write, .ok ())
  else (s, [], .error .attributeError)

/-- pciserverprotocol.py:355-373 `_send`. -/
def send (cmd : Packet) : Proc Server SEff Unit := fun s =>
  match serialize cmd with
  | .error e => (s, [], .error e)
  | .ok w => writeOut w s

/-- pciserverprotocol.py:352-353 `_send_later`. -/
def sendLater (cmd : Packet) : Proc Server SEff Unit := fun s =>
  match serialize cmd with
  | .error e => (s, [], .error e)
  | .ok w => ({ s with queue := s.queue ++ [w] }, [.queued w], .ok ())

/-- pciserverprotocol.py:75-86 `connection_made`. -/
def connectionMade : Proc Server SEff Unit :=
  Proc.andThen (Proc.modify fun s => { s with connected := true }) fun _ => send .powerOn

/-- pciserverprotocol.py:375-376 `send_error`. -/
def sendError : Proc Server SEff Unit := send .pciError

/-- pciserverprotocol.py:378-382 `send_confirmation`. -/
def sendConfirmation (code : Bytes) (ok : Bool) : Proc Server SEff Unit := fun s =>
  match mkConfirmation code ok with
  | .error e => (s, [], .error e)
  | .ok p => send p s

/-- pciserverprotocol.py:224-234 `on_reset`. -/
def onReset : Proc Server SEff Unit := fun s =>
  ({ s with basic := true, idmon := false, connect := false, checksum := false, monitor := false,
            app1 := 0xff, app2 := 0xff }, [.event .reset], .ok ())

/-- A packet with one SAL and a source address (pciserverprotocol.py:301-310,
398-403, 418-423, 452-457, 471-476). -/
def eventPacket (checksum : Bool) (sal : Py SAL) (src : Int) : Py Packet :=
  match sal with
  | .error e => .error e
  | .ok l =>
    match mkPM checksum .class4 none [l] with
    | .error e => .error e
    | .ok p => .ok (.pm { p with src := some src })

/-- Half of pciserverprotocol.py:300-310: queue a random event. `rand n` is what
the `n`-th call of `random.randint(1, 100)` returns; the group address is drawn
before the source address. -/
def queueRandom (rand : Nat → Int) (mk : Int → Py SAL) : Proc Server SEff Unit := fun s =>
  match eventPacket s.checksum (mk (rand s.rngPos)) (rand (s.rngPos + 1)) with
  | .error e => ({ s with rngPos := s.rngPos + 2 }, [], .error e)
  | .ok p => sendLater p { s with rngPos := s.rngPos + 2 }

/-- pciserverprotocol.py:288-310 `on_clock_update`. -/
def onClockUpdate (rand : Nat → Int) (v : ClockVal) : Proc Server SEff Unit :=
  Proc.andThen (Proc.emit (.event (.clockUpdate v))) fun _ =>
  Proc.andThen (queueRandom rand mkLightOn) fun _ => queueRandom rand mkLightOff

/-- pciserverprotocol.py:324-326, the presence table. -/
def states : List GroupState :=
  [.missing] ++ List.replicate 10 .on ++ List.replicate (0xfe - 12) .missing ++ [.on]

/-- One block of pciserverprotocol.py:330-335; `StandardCAL` is serialised with a
line end like any other packet. -/
def sendBlock (x : Nat) : Proc Server SEff Unit := fun s =>
  match standardCalEncodePacket true appStatusRequest x ((states.drop x).take 0x58) with
  | .error e => (s, [], .error e)
  | .ok w => writeOut (w ++ endResponse) s

/-- pciserverprotocol.py:312-337 `on_master_application_status`;
`range(0, 0xff, 0x58)` is 0, 88, 176. -/
def onMasterStatus (ga : Int) : Proc Server SEff Unit :=
  Proc.andThen (Proc.emit (.event (.masterStatus ga))) fun _ => fun s =>
  if s.basic then
    Proc.andThen (sendBlock 0) (fun _ => Proc.andThen (sendBlock 0x58) fun _ => sendBlock 0xb0) s
  else (s, [], .error .notImplemented)

/-- The loop body of pciserverprotocol.py:126-162. The result tells whether the
method goes on (`false` is a `return` before the confirmation). -/
def onSal (rand : Nat → Int) (s : SAL) : Proc Server SEff Bool :=
  match s with
  | .lightRamp ga d l => Proc.andThen (Proc.emit (.event (.lightingRamp ga d l))) fun _ => pure true
  | .lightOn ga => Proc.andThen (Proc.emit (.event (.lightingOn ga))) fun _ => pure true
  | .lightOff ga => Proc.andThen (Proc.emit (.event (.lightingOff ga))) fun _ => pure true
  | .lightTerminate ga => Proc.andThen (Proc.emit (.event (.lightingTerminate ga))) fun _ => pure true
  | .clockUpdate v => Proc.andThen (onClockUpdate rand v) fun _ => pure true
  | .clockRequest => Proc.andThen (Proc.emit (.event .clockRequest)) fun _ => pure true
  | .statusRequest level ga child =>
    if child = appStatusRequest ∧ level = false then
      Proc.andThen (onMasterStatus ga) fun _ => pure true
    else pure false
  | .temperature _ _ => pure false
  | .enableSet _ _ => pure false

/-- The loop of pciserverprotocol.py:126-162. -/
def onSals (rand : Nat → Int) : List SAL → Proc Server SEff Bool
  | [] => pure true
  | s :: rest => Proc.andThen (onSal rand s) fun go => if go then onSals rand rest else pure false

/-- pciserverprotocol.py:163-212: parameters of a device management packet. -/
def onDM (p : DM) : Proc Server SEff Bool := fun s =>
  if p.parameter = 0x21 ∨ p.parameter = 0x22 ∨ p.parameter = 0x3e ∨ p.parameter = 0x42 then
    (s, [], .ok true)
  else if p.parameter = 0x30 ∨ p.parameter = 0x41 then
    let v := lowByte p.value
    ({ s with connect := v &&& 0x01 != 0, checksum := v &&& 0x08 != 0, basic := v &&& 0x10 == 0,
              monitor := v &&& 0x20 != 0, idmon := v &&& 0x40 != 0 }, [], .ok true)
  else (s, [], .ok false)

/-- pciserverprotocol.py:219-220. -/
def confirm (conf : Option UInt8) : Proc Server SEff Unit :=
  match conf with
  | some c => sendConfirmation [c] true
  | none => pure ()

/-- pciserverprotocol.py:92-220 `handle_cbus_packet`. Packets from a PCI
(`SpecialServerPacket`s) cannot be decoded in this direction; they would be
"unhandled". -/
def onPacket (rand : Nat → Int) (p : Packet) : Proc Server SEff Unit :=
  match p with
  | .reset => onReset
  | .smartConnect => Proc.modify fun s => { s with basic := false, connect := true }
  | .pm q => Proc.andThen (onSals rand q.sals) fun go => if go then confirm q.conf else pure ()
  | .dm q => Proc.andThen (onDM q) fun go => if go then confirm q.conf else pure ()
  | _ => pure ()

/-- `handle_data` of a `PCIServerProtocol` (cbus_protocol.py:54-79 with
`emulate_pci=True`). -/
def handle (rand : Nat → Int) : Bytes → Proc Server SEff Int :=
  handleData true (fun s => s.checksum) echo (onPacket rand)

/-- `data_received` of a `PCIServerProtocol`. -/
def dataReceived (rand : Nat → Int) (d : Bytes) : Proc (Conn Server) SEff Unit :=
  CBus.dataReceived maxBufferSize (handle rand) d

/-- Sending an event with one SAL. -/
def sendEvent (sal : Py SAL) (src : Int) : Proc Server SEff Unit := fun s =>
  match eventPacket s.checksum sal src with
  | .error e => (s, [], .error e)
  | .ok p => send p s

/-- pciserverprotocol.py:384-403 `lighting_group_on`. -/
def lightingGroupOn (src ga : Int) : Proc Server SEff Unit := sendEvent (mkLightOn ga) src
/-- pciserverprotocol.py:405-423 `lighting_group_off`. -/
def lightingGroupOff (src ga : Int) : Proc Server SEff Unit := sendEvent (mkLightOff ga) src
/-- pciserverprotocol.py:425-457 `lighting_group_ramp`, for integer durations; the
default level is the float `1.0`. -/
def lightingGroupRamp (src ga duration : Int) (level : PyNum := .flt 1) : Proc Server SEff Unit :=
  sendEvent (mkLightRamp ga duration level) src
/-- pciserverprotocol.py:459-476 `lighting_group_terminate_ramp`. -/
def lightingGroupTerminate (src ga : Int) : Proc Server SEff Unit := sendEvent (mkLightTerminate ga) src

end Server
end CBus
