import Verif.Model.Packet
import Verif.Model.Text

/-! # The texts of packets

What `repr` and `str` give for the packets that `decode_packet` returns: the line that
`cbus/tools/decode_packet.py` prints and that `cbus_protocol.py:76` logs for every packet
that arrives.  Objects without `__repr__` have the text of `object.__repr__`, with the
address of the object in memory, which is a parameter; so are the texts of floats and of
exceptions.  Classes with `@dataclass` have the text that `dataclasses` generates, enumerations
that of `enum`.  Only packets that were decoded are meant: what was put together by hand can have a
member of `Application` where this has a number. -/

namespace CBus.Repr

open CBus

/-- What the texts depend on besides the packet. -/
structure Env where
  /-- the addresses in memory of the objects, by their place in the packet -/
  address : Nat → Nat
  /-- `repr` of a float -/
  float : Rat → Str
  /-- `repr` of the exception of an invalid packet -/
  exception : PyErr → Str

/-- The characters of a literal. -/
@[irreducible] def lit (s : String) : Str := s.toList

/-- A digit of `%x`. -/
def hexChar (n : Nat) : Char := if n < 10 then Char.ofNat (48 + n) else Char.ofNat (87 + n)

/-- The digits of `%x`, with enough fuel. -/
def hexStrAux : Nat → Nat → Str
  | 0, _ => []
  | f + 1, n => if n < 16 then [hexChar n] else hexStrAux f (n / 16) ++ [hexChar (n % 16)]

/-- `f'{n:x}'` of a number. -/
def hexStr (n : Nat) : Str := hexStrAux (n + 1) n

/-- `f'{i:x}'`. -/
def hexInt (i : Int) : Str := if i < 0 then '-' :: hexStr i.natAbs else hexStr i.natAbs

/-- `object.__repr__`: the module and the name of the class, and the address. -/
def object (cls : String) (address : Nat) : Str :=
  lit "<" ++ lit cls ++ lit " object at 0x" ++ hexStr address ++ lit ">"

/-- `str` of a boolean. -/
def bool : Bool → Str
  | true => lit "True"
  | false => lit "False"

/-- `str` of an integer or `None`. -/
def optInt : Option Int → Str
  | none => lit "None"
  | some i => intStr i

/-- `str` of a number. -/
def num (e : Env) : PyNum → Str
  | .int i => intStr i
  | .flt q => e.float q
  | .nan => lit "nan"
  | .inf false => lit "inf"
  | .inf true => lit "-inf"

/-- `', '.join`. -/
def joined : List Str → Str
  | [] => []
  | [x] => x
  | x :: y :: rest => x ++ lit ", " ++ joined (y :: rest)

/-- `repr` of a list, whose elements have these texts. -/
def list (l : List Str) : Str := '[' :: joined l ++ [']']

/-- One byte in `repr` of bytes between the quotes `q`: CPython's `bytes.__repr__`. -/
def byte (q : UInt8) (b : UInt8) : Str :=
  if b = q ∨ b = 0x5c then ['\\', Char.ofNat b.toNat]
  else if b = 0x09 then ['\\', 't']
  else if b = 0x0a then ['\\', 'n']
  else if b = 0x0d then ['\\', 'r']
  else if b < 0x20 ∨ b ≥ 0x7f then ['\\', 'x', hexChar (b.toNat / 16), hexChar (b.toNat % 16)]
  else [Char.ofNat b.toNat]

/-- `repr` of bytes: single quotes, unless there are some in them and no double ones. -/
def bytes (d : Bytes) : Str :=
  let q : UInt8 := if (0x27 : UInt8) ∈ d ∧ (0x22 : UInt8) ∉ d then 0x22 else 0x27
  'b' :: Char.ofNat q.toNat :: d.flatMap (byte q) ++ [Char.ofNat q.toNat]

/-- `repr` of a `datetime.date` or `datetime.time`: zero seconds and microseconds at the end
are left out. -/
def clock : ClockVal → Str
  | .date d => lit "datetime.date(" ++ natStr d.year ++ lit ", " ++ natStr d.month ++ lit ", " ++
      natStr d.day ++ lit ")"
  | .time t => lit "datetime.time(" ++ natStr t.hour ++ lit ", " ++ natStr t.minute ++
      (if t.microsecond ≠ 0 then lit ", " ++ natStr t.second ++ lit ", " ++ natStr t.microsecond
        else if t.second ≠ 0 then lit ", " ++ natStr t.second else []) ++ lit ")"

/-- `repr` of a SAL: lighting.py:180-183, 204-205, 226-227, 250-252, clock.py:200-201; the others have
none (clock.py:204-248, temperature.py:104-177, enable.py:92-157), or a generated one
(status_request.py:42-47). -/
def sal (e : Env) (i : Nat) : SAL → Str
  | .lightOn ga => lit "<LightingOnSAL object: group_address=" ++ intStr ga ++ lit ">"
  | .lightOff ga => lit "<LightingOffSAL object: group_address=" ++ intStr ga ++ lit ">"
  | .lightTerminate ga => lit "<LightingTerminateRampSAL object: group_address=" ++ intStr ga ++ lit ">"
  | .lightRamp ga d l => lit "<LightingRampSAL object: group_address=" ++ intStr ga ++
      lit ", duration=" ++ intStr d ++ lit ", level=" ++ num e l ++ lit ">"
  | .clockUpdate v => lit "ClockUpdateSAL(val=" ++ clock v ++ lit ")"
  | .clockRequest => object "cbus.protocol.application.clock.ClockRequestSAL" (e.address i)
  | .temperature _ _ => object "cbus.protocol.application.temperature.TemperatureBroadcastSAL" (e.address i)
  | .enableSet _ _ => object "cbus.protocol.application.enable.EnableSetNetworkVariableSAL" (e.address i)
  | .statusRequest l ga c => lit "StatusRequestSAL(level_request=" ++ bool l ++ lit ", group_address=" ++
      intStr ga ++ lit ", child_application=" ++ intStr c ++ lit ")"

/-- The texts of the SALs of a packet, from the place `i` on. -/
def sals (e : Env) (i : Nat) : List SAL → List Str
  | [] => []
  | s :: rest => sal e i s :: sals e (i + 1) rest

/-- common.py:142-146. -/
def groupState : GroupState → Str
  | .missing => lit "<GroupState.MISSING: 0>"
  | .on => lit "<GroupState.ON: 1>"
  | .off => lit "<GroupState.OFF: 2>"
  | .error => lit "<GroupState.ERROR: 3>"

/-- report.py:83-85, 129-169 (`@dataclass`). -/
def report : Report → Str
  | .binary states => lit "BinaryStatusReport(_group_states=" ++ list (states.map groupState) ++ lit ")"
  | .level states => lit "LevelStatusReport(_group_states=" ++ list (states.map optInt) ++ lit ")"

/-- common.py:149-172, the names of the attributes from 0 on. -/
def attributes : List String :=
  ["MANUFACTURER", "TYPE", "FIRMWARE_VER", "SUMMARY", "EXTENDED", "NET_TERM_LVL", "TERM_LVL", "NET_VOLTAGE",
    "GAV_CURRENT", "GAV_STORED", "GAV_PHY_ADDR", "LOGIC_ASSIGN", "DELAYS", "MIN_LVL", "MAX_LVL", "CUR_LVL",
    "OUT_SUMMARY", "DSI_STATUS"]

/-- `repr` of a member of `IdentifyAttribute`, or of a number that is none. -/
def attr (a : Int) : Str :=
  match (if a < 0 then none else attributes[a.natAbs]?) with
  | some name => lit "<IdentifyAttribute." ++ lit name ++ lit ": " ++ intStr a ++ lit ">"
  | none => intStr a

/-- identify.py:31-39, recall.py:31-40, reply.py:30-45, extended.py:33-41 (`@dataclass`). -/
def cal : CAL → Str
  | .identify a => lit "IdentifyCAL(attribute=" ++ attr a ++ lit ")"
  | .recall p c => lit "RecallCAL(param=" ++ intStr p ++ lit ", count=" ++ intStr c ++ lit ")"
  | .reply p d => lit "ReplyCAL(parameter=" ++ intStr p ++ lit ", data=" ++ bytes d ++ lit ")"
  | .extended x a b r => lit "ExtendedCAL(externally_initated=" ++ bool x ++ lit ", child_application=" ++
      intStr a ++ lit ", block_start=" ++ intStr b ++ lit ", report=" ++ report r ++ lit ")"

/-- `repr` of a packet: pm_packet.py:55-61, pp_packet.py:176-179, dm_packet.py:79-82,
confirm_packet.py:51-53, error_packet.py:32-33, base_packet.py:93-94 and 107-111; `PowerOnPacket` has none
(po_packet.py:24-32). -/
def packet (e : Env) : Packet → Str
  | .powerOn => object "cbus.protocol.po_packet.PowerOnPacket" (e.address 0)
  | .pciError => lit "PCIErrorPacket()"
  | .confirmation c s => lit "ConfirmationPacket(code=" ++ bytes c ++ lit ", success=" ++ bool s ++ lit ")"
  | .reset => lit "ResetPacket()"
  | .smartConnect => lit "SmartConnectShortcutPacket()"
  | .invalid d x => lit "InvalidPacket(payload=" ++ bytes d ++ lit ", exception=" ++ e.exception x ++ lit ")"
  | .pm p => lit "<PointToMultipointPacket object: application=" ++ optInt p.app ++ lit ", source_address=" ++
      optInt p.src ++ lit ", sals=" ++ list (sals e 0 p.sals) ++ lit ">"
  | .pp p => lit "<PointToPointPacket object: unit_address=" ++ intStr p.unit ++ lit ", pm_bridged=" ++
      bool p.bridged ++ lit ", cals=" ++ list (p.cals.map cal) ++ lit ">"
  | .dm p => lit "DeviceManagementPacket(parameter=0x" ++ hexInt p.parameter ++ lit ", value=0x" ++
      hexInt p.value ++ lit ", checksum=" ++ bool p.checksum ++ lit ", priority_class=" ++
      natStr p.prio.code.toNat ++ lit ")"
  | .cal c => cal c

/-- decode_packet.py:28-35 and cbus_protocol.py:76: the text of what `decode_packet` gives. -/
def printed (e : Env) : Option Packet → Str
  | none => lit "None"
  | some p => packet e p

end CBus.Repr
