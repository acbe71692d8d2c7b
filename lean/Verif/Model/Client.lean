import Verif.Model.Buffered

/-! # `cbus/protocol/pciprotocol.py` -/

namespace CBus

/-- The invocation of an event handler method by `handle_cbus_packet`
(pciprotocol.py:99-138). -/
inductive Event
  | confirmation (code : Bytes) (success : Bool)
  | cannotAcceptData
  | lightingRamp (src : Option Int) (ga duration : Int) (level : PyNum)
  | lightingOn (src : Option Int) (ga : Int)
  | lightingOff (src : Option Int) (ga : Int)
  | lightingTerminate (src : Option Int) (ga : Int)
  | clockRequest (src : Option Int)
  | clockUpdate (src : Option Int) (val : ClockVal)
  deriving DecidableEq, Repr

/-- Observable effects of a `PCIProtocol`, in order: a `transport.write`, an event
handler call, the creation of the time synchronisation task, a wait of that
task, and whatever a subclass adds (`π`). -/
inductive Eff (π : Type)
  | write (data : Bytes)
  | event (e : Event)
  | startTimesync
  | sleep (seconds : Int)
  | ext (x : π)
  deriving DecidableEq, Repr

/-- The `connection_lost_future` argument. -/
inductive FutureState | absent | pending | done
  deriving DecidableEq, Repr

/-- State of a `PCIProtocol` (pciprotocol.py:68-81). The unused members
`_recv_buffer` and `_recv_buffer_lock` are omitted. `clockReads` counts the
calls of `datetime.now()` so far. `mqttApi` is the member `mqtt_api` of the
subclass `CBusHandler` (cmqttd.py:87-96), unused by `PCIProtocol` itself. -/
structure Client where
  connected : Bool := false
  nextConf : Nat := 0
  timesync : Int := 10
  handleClock : Bool := true
  future : FutureState := .absent
  clockReads : Nat := 0
  mqttApi : Bool := false
  deriving DecidableEq, Repr

namespace Client
variable {π : Type}

/-- `isinstance(cmd, SpecialClientPacket)` (reset_packet.py:22, scs_packet.py:24). -/
def isSpecial : Packet → Bool
  | .reset => true
  | .smartConnect => true
  | _ => false

/-- pciprotocol.py:315-326 `_get_confirmation_code`. -/
def getConfirmationCode : Proc Client (Eff π) UInt8 := fun s =>
  match confirmationCodes[s.nextConf]? with
  | none => (s, [], .error .indexError)
  | some o => ({ s with nextConf := (s.nextConf + 1) % confirmationCodes.length }, [], .ok o)

/-- pciprotocol.py:328-369 `_send`. No caller passes `confirmation`, so only its
default is modelled. A bare CAL is no `BasePacket` and would be refused with a
`TypeError` (pciprotocol.py:339-340); here it fails when it is encoded, with another
exception. No caller passes one. The result is the confirmation code. -/
def send (cmd : Packet) (basicMode : Bool := false) : Proc Client (Eff π) (Option UInt8) := fun s =>
  if s.connected then
    match cmd.encodePacket with
    | .error e => (s, [], .error e)
    | .ok w =>
      let w := if basicMode || isSpecial cmd then w else 0x5c :: w
      if isSpecial cmd then (s, [.write (w ++ endCommand)], .ok none)
      else
        Proc.andThen getConfirmationCode
          (fun c => fun s => (s, [.write (w ++ [c] ++ endCommand)], .ok (some c))) s
  else (s, [], .error .ioError)

/-- pciprotocol.py:371-413 `pci_reset`. -/
def pciReset : Proc Client (Eff π) Unit :=
  Proc.andThen (send .reset) fun _ =>
  Proc.andThen (send .reset) fun _ =>
  Proc.andThen (send .reset) fun _ =>
  Proc.andThen (send (.dm { checksum := false, parameter := 0x21, value := 0x38 }) true) fun _ =>
  Proc.andThen (send (.dm { checksum := false, parameter := 0x42, value := 0x0e }) true) fun _ =>
  Proc.andThen (send (.dm { checksum := false, parameter := 0x30, value := 0x59 }) true) fun _ =>
  pure ()

/-- pciprotocol.py:83-93 `connection_made`. -/
def connectionMade : Proc Client (Eff π) Unit :=
  Proc.andThen (Proc.modify fun s => { s with connected := true }) fun _ =>
  Proc.andThen pciReset fun _ => fun s =>
  if s.timesync ≠ 0 then (s, [.startTimesync], .ok ()) else (s, [], .ok ())

/-- pciprotocol.py:95-97 `connection_lost`. `None.set_result` is an
`AttributeError`; a future can be resolved only once. -/
def connectionLost : Proc Client (Eff π) Unit := fun s =>
  match s.future with
  | .absent => ({ s with connected := false }, [], .error .attributeError)
  | .pending => ({ s with connected := false, future := .done }, [], .ok ())
  | .done => ({ s with connected := false }, [], .error .invalidState)

/-- pciprotocol.py:415-431 `identify`. -/
def identify (unit attr : Int) : Proc Client (Eff π) (Option UInt8) := fun s =>
  match mkPP true .class4 unit 0 none [.identify attr] with
  | .error e => (s, [], .error e)
  | .ok p => send (.pp p) false s

/-- The list comprehensions of pciprotocol.py:456, 483, 536. -/
def mkAll (mk : Int → Py SAL) : List Int → Py (List SAL)
  | [] => .ok []
  | g :: gs =>
    match mk g with
    | .error e => .error e
    | .ok s =>
      match mkAll mk gs with
      | .error e => .error e
      | .ok l => .ok (s :: l)

/-- Build a packet from SALs and send it. -/
def sendSals (sals : Py (List SAL)) : Proc Client (Eff π) (Option UInt8) := fun s =>
  match sals with
  | .error e => (s, [], .error e)
  | .ok l =>
    match mkPM true .class4 none l with
    | .error e => (s, [], .error e)
    | .ok p => send (.pm p) false s

/-- The common body of pciprotocol.py:433-484, 512-537. A single integer is the
one-element list; `int(g)` is the identity on integers. -/
def lightingMany (mk : Int → Py SAL) (gas : List Int) : Proc Client (Eff π) (Option UInt8) :=
  if gas.length > 9 then Proc.raise .valueError else sendSals (mkAll mk gas)

/-- pciprotocol.py:433-457 `lighting_group_on`. -/
def lightingGroupOn (gas : List Int) : Proc Client (Eff π) (Option UInt8) := lightingMany mkLightOn gas
/-- pciprotocol.py:459-484 `lighting_group_off`. -/
def lightingGroupOff (gas : List Int) : Proc Client (Eff π) (Option UInt8) := lightingMany mkLightOff gas
/-- pciprotocol.py:512-537 `lighting_group_terminate_ramp`. -/
def lightingGroupTerminate (gas : List Int) : Proc Client (Eff π) (Option UInt8) :=
  lightingMany mkLightTerminate gas
/-- pciprotocol.py:486-510 `lighting_group_ramp`, for integer durations. -/
def lightingGroupRamp (ga duration : Int) (level : PyNum := .int 255) : Proc Client (Eff π) (Option UInt8) :=
  sendSals (match mkLightRamp ga duration level with
    | .error e => .error e
    | .ok s => .ok [s])

/-- pciprotocol.py:539-552 `clock_datetime`. `now n` is what the `n`-th call of
`datetime.now()` returns. -/
def clockDatetime (now : Nat → PyDateTime) (when_ : Option PyDateTime) : Proc Client (Eff π) (Option UInt8) :=
  fun s =>
  match when_ with
  | some t => sendSals (.ok (clockUpdateSal t)) s
  | none => sendSals (.ok (clockUpdateSal (now s.clockReads))) { s with clockReads := s.clockReads + 1 }

/-- The event handler methods of `PCIProtocol` itself (pciprotocol.py:141-311):
all but `on_clock_request` only log. -/
def baseHook (now : Nat → PyDateTime) (e : Event) : Proc Client (Eff π) Unit := fun s =>
  match e with
  | .clockRequest _ =>
    if s.handleClock then Proc.andThen (clockDatetime now none) (fun _ => pure ()) s else (s, [], .ok ())
  | _ => (s, [], .ok ())

/-- Calling an event handler: the call itself is observable. -/
def call (hook : Event → Proc Client (Eff π) Unit) (e : Event) : Proc Client (Eff π) Unit :=
  Proc.andThen (Proc.emit (.event e)) fun _ => hook e

/-- The loop body of pciprotocol.py:112-136. -/
def onSal (hook : Event → Proc Client (Eff π) Unit) (src : Option Int) (s : SAL) : Proc Client (Eff π) Unit :=
  match s with
  | .lightRamp ga d l => call hook (.lightingRamp src ga d l)
  | .lightOn ga => call hook (.lightingOn src ga)
  | .lightOff ga => call hook (.lightingOff src ga)
  | .lightTerminate ga => call hook (.lightingTerminate src ga)
  | .clockRequest => call hook (.clockRequest src)
  | .clockUpdate v => call hook (.clockUpdate src v)
  | _ => pure ()

/-- The loop of pciprotocol.py:112-136. -/
def onSals (hook : Event → Proc Client (Eff π) Unit) (src : Option Int) : List SAL → Proc Client (Eff π) Unit
  | [] => pure ()
  | s :: rest => Proc.andThen (onSal hook src s) fun _ => onSals hook src rest

/-- pciprotocol.py:99-138 `handle_cbus_packet`. -/
def onPacket (hook : Event → Proc Client (Eff π) Unit) (p : Packet) : Proc Client (Eff π) Unit :=
  match p with
  | .pciError => call hook .cannotAcceptData
  | .confirmation c ok => call hook (.confirmation c ok)
  | .pm q => onSals hook q.src q.sals
  | _ => pure ()

/-- `handle_data` of a `PCIProtocol` (cbus_protocol.py:38-79 with
`emulate_pci=False`, so `self.checksum` is always `True` and `echo` is never
called). -/
def handle (hook : Event → Proc Client (Eff π) Unit) : Bytes → Proc Client (Eff π) Int :=
  handleData false (fun _ => true) (fun _ => pure ()) (onPacket hook)

/-- `data_received` of a `PCIProtocol`. -/
def dataReceived (hook : Event → Proc Client (Eff π) Unit) (d : Bytes) : Proc (Conn Client) (Eff π) Unit :=
  CBus.dataReceived maxBufferSize (handle hook) d

/-- The loop of pciprotocol.py:559-569, where `others` is what the rest of the
program does to the object during each `sleep` that completes; after that the
task is cancelled. -/
def timesyncLoop (now : Nat → PyDateTime) (frequency : Int) :
    List (Proc Client (Eff π) Unit) → Proc Client (Eff π) Unit
  | [] =>
    Proc.andThen (clockDatetime now none) fun _ => Proc.emit (.sleep frequency)
  | o :: rest =>
    Proc.andThen (clockDatetime now none) fun _ =>
    Proc.andThen (Proc.emit (.sleep frequency)) fun _ =>
    Proc.andThen o fun _ => timesyncLoop now frequency rest

/-- pciprotocol.py:554-569 `timesync`. -/
def timesyncTask (now : Nat → PyDateTime) (others : List (Proc Client (Eff π) Unit)) :
    Proc Client (Eff π) Unit := fun s =>
  if s.timesync ≤ 0 then (s, [], .ok ()) else timesyncLoop now s.timesync others s

end Client
end CBus
