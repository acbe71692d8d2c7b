import Verif.Model.Repr
import Verif.Model.Client
import Verif.Model.Server

/-! # What is logged of what arrives

The lines that `handle_data`, `handle_cbus_packet` and the event handlers `on_…` of the client and of the
simulated PCI log for a packet, without time, level and logger.  The lines of `_send`, which begin with
`send: `, and of `handle_data` before there is a packet (`Incoming data: `) are left out.  `cmqttd`
overrides the handlers of lighting events without calling those of the class, so of these it logs nothing but
the first line. -/

namespace CBus.Log

open CBus CBus.Repr

/-- What the lines depend on besides the packet. -/
structure Env extends Repr.Env where
  /-- `'%.2f' % (level * 100)` of a level that is no integer; no such level is ever decoded -/
  percent : PyNum → Str
  /-- `str` of an exception -/
  message : PyErr → Str

/-- `'%.2f' % (level * 100)`: an integer is converted to a float, exactly up to 2 ** 53. -/
def percent (e : Env) : PyNum → Str
  | .int i => intStr (i * 100) ++ lit ".00"
  | l => e.percent l

/-- pciprotocol.py:150, 188-190, 203, 216, 231-232, 279, 299, 311: the line of an event handler. -/
def event (e : Env) : Event → Str
  | .confirmation c s => lit "recv: confirmation: code = " ++ bytes c ++ lit ", success = " ++ bool s
  | .cannotAcceptData => lit "recv: PCI cannot accept data"
  | .lightingRamp src ga d l => lit "recv: light ramp: from " ++ optInt src ++ lit " to " ++ intStr ga ++
      lit ", duration " ++ intStr d ++ lit " seconds to level " ++ num e.toEnv l ++ lit " "
  | .lightingOn src ga => lit "recv: light on: from " ++ optInt src ++ lit " to " ++ intStr ga
  | .lightingOff src ga => lit "recv: light off: from " ++ optInt src ++ lit " to " ++ intStr ga
  | .lightingTerminate src ga => lit "recv: terminate ramp: from " ++ optInt src ++ lit " to " ++ intStr ga
  | .clockRequest src => lit "recv: clock request from " ++ optInt src
  | .clockUpdate src v => lit "recv: clock update from " ++ optInt src ++ lit " of " ++ clock v

/-- pciprotocol.py:112-136: the line for the SAL at the place `i` of a packet. -/
def clientSal (e : Env) (i : Nat) (src : Option Int) : SAL → Str
  | .lightRamp ga d l => event e (.lightingRamp src ga d l)
  | .lightOn ga => event e (.lightingOn src ga)
  | .lightOff ga => event e (.lightingOff src ga)
  | .lightTerminate ga => event e (.lightingTerminate src ga)
  | .clockRequest => event e (.clockRequest src)
  | .clockUpdate v => event e (.clockUpdate src v)
  | s => lit "hcp: unhandled SAL type: " ++ sal e.toEnv i s

/-- The loop of pciprotocol.py:112-136. -/
def clientSals (e : Env) (i : Nat) (src : Option Int) : List SAL → List Str
  | [] => []
  | s :: rest => clientSal e i src s :: clientSals e (i + 1) src rest

/-- pciprotocol.py:99-138: the lines of `handle_cbus_packet` and the handlers. -/
def clientPacket (e : Env) (p : Packet) : List Str :=
  match p with
  | .pciError => [event e .cannotAcceptData]
  | .confirmation c s => [event e (.confirmation c s)]
  | .powerOn => [lit "hcp: unhandled SpecialServerPacket: " ++ packet e.toEnv p]
  | .pm q => clientSals e 0 q.src q.sals
  | _ => [lit "hcp: unhandled other packet: " ++ packet e.toEnv p]

/-- cbus_protocol.py:75-77 in a client. -/
def client (e : Env) (p : Packet) : List Str := (lit "Got packet: " ++ packet e.toEnv p) :: clientPacket e p

/-- pciserverprotocol.py:231, 250-252, 261, 270, 280, 286, 298, 320-321: the line of an event handler. -/
def serverEvent (e : Env) : SEvent → Str
  | .reset => lit "recv: PCI hard reset"
  | .lightingRamp ga d l => lit "recv: lighting ramp: " ++ intStr ga ++ lit ", duration " ++ intStr d ++
      lit " seconds to level " ++ percent e l ++ lit "%"
  | .lightingOn ga => lit "recv: lighting on: " ++ intStr ga
  | .lightingOff ga => lit "recv: lighting off: " ++ intStr ga
  | .lightingTerminate ga => lit "recv: lighting terminate ramp: " ++ intStr ga
  | .clockRequest => lit "recv: clock request"
  | .clockUpdate v => lit "recv: clock update: " ++ clock v
  | .masterStatus ga => lit "recv: master application status request from " ++ intStr ga

/-- The loop of pciserverprotocol.py:126-162: the lines for the SALs from the place `i` on. An unhandled one
ends it, and so does (with an exception) a request for the units when not in basic mode. -/
def serverSals (e : Env) (basic : Bool) (i : Nat) : List SAL → List Str
  | [] => []
  | .lightRamp ga d l :: rest => serverEvent e (.lightingRamp ga d l) :: serverSals e basic (i + 1) rest
  | .lightOn ga :: rest => serverEvent e (.lightingOn ga) :: serverSals e basic (i + 1) rest
  | .lightOff ga :: rest => serverEvent e (.lightingOff ga) :: serverSals e basic (i + 1) rest
  | .lightTerminate ga :: rest => serverEvent e (.lightingTerminate ga) :: serverSals e basic (i + 1) rest
  | .clockUpdate v :: rest => serverEvent e (.clockUpdate v) :: serverSals e basic (i + 1) rest
  | .clockRequest :: rest => serverEvent e .clockRequest :: serverSals e basic (i + 1) rest
  | .statusRequest level ga child :: rest =>
    if child = appStatusRequest ∧ level = false then
      serverEvent e (.masterStatus ga) :: (if basic then serverSals e basic (i + 1) rest else [])
    else [lit "dce: unhandled status request SAL: " ++ sal e.toEnv i (.statusRequest level ga child)]
  | s :: _ => [lit "dce: unhandled SAL type: " ++ sal e.toEnv i s]

/-- pciserverprotocol.py:92-220: the lines of `handle_cbus_packet` and the handlers. -/
def serverPacket (e : Env) (basic : Bool) (p : Packet) : List Str :=
  match p with
  | .invalid _ x => [lit "dce: invalid packet: " ++ e.message x]
  | .reset => [lit "dce: " ++ packet e.toEnv p, serverEvent e .reset]
  | .smartConnect => [lit "dce: " ++ packet e.toEnv p]
  | .cal (.recall _ _) => [lit "dce: " ++ packet e.toEnv p, lit "dce: got a cal?: " ++ packet e.toEnv p]
  | .pm q => (lit "dce: " ++ packet e.toEnv p) :: serverSals e basic 0 q.sals
  | .dm q =>
    if q.parameter = 0x21 ∨ q.parameter = 0x22 ∨ q.parameter = 0x3e ∨ q.parameter = 0x42 ∨ q.parameter = 0x30 ∨
        q.parameter = 0x41 then [lit "dce: " ++ packet e.toEnv p]
    else [lit "dce: " ++ packet e.toEnv p, lit "dce: unhandled DeviceManagementPacket (" ++ intStr q.parameter ++
      lit " = " ++ intStr q.value ++ lit ")"]
  | _ => [lit "dce: " ++ packet e.toEnv p, lit "dce: unhandled packet type: " ++ packet e.toEnv p]

/-- cbus_protocol.py:75-77 in a simulated PCI. -/
def server (e : Env) (basic : Bool) (p : Packet) : List Str :=
  (lit "Got packet: " ++ packet e.toEnv p) :: serverPacket e basic p

end CBus.Log
