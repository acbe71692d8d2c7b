import Verif.Model.Py

/-! # `cbus/common.py` -/

namespace CBus

/-- common.py:29 `HEX_CHARS`; membership `c in HEX_CHARS`. -/
def hexChars : Bytes :=
  [0x30, 0x31, 0x32, 0x33, 0x34, 0x35, 0x36, 0x37, 0x38, 0x39,
   0x41, 0x42, 0x43, 0x44, 0x45, 0x46]

/-- common.py:34 `END_COMMAND = b'\x0d'`. -/
def endCommand : Bytes := [0x0d]

/-- common.py:40 `END_RESPONSE = b'\x0d\x0a'`. -/
def endResponse : Bytes := [0x0d, 0x0a]

/-- common.py:42 `MIN_MESSAGE_SIZE`. -/
def minMessageSize : Nat := 2

/-- common.py:43 `MAX_BUFFER_SIZE`. -/
def maxBufferSize : Nat := 256

/-- common.py:46-55 `DestinationAddressType`. -/
inductive DAT | unset | ppm | pm | pp
  deriving DecidableEq, Repr

/-- common.py:52-55, the enumeration values. -/
def DAT.code : DAT → UInt8
  | .unset => 0x00
  | .ppm => 0x03
  | .pm => 0x05
  | .pp => 0x06

/-- `DestinationAddressType(x)`: `ValueError` for reserved values
(common.py:46-55). -/
def DAT.ofCode (c : UInt8) : Py DAT :=
  if c = 0x00 then .ok .unset
  else if c = 0x03 then .ok .ppm
  else if c = 0x05 then .ok .pm
  else if c = 0x06 then .ok .pp
  else .error .valueError

/-- common.py:58-62 `PriorityClass`. -/
inductive Prio | class4 | class3 | class2 | class1
  deriving DecidableEq, Repr

/-- common.py:59-62, the enumeration values. -/
def Prio.code : Prio → UInt8
  | .class4 => 0
  | .class3 => 1
  | .class2 => 2
  | .class1 => 3

/-- `PriorityClass(x & 0x03)`; total on the two-bit values it is applied to
(common.py:58-62, packet.py:209). -/
def Prio.ofBits (c : UInt8) : Prio :=
  if c = 0 then .class4 else if c = 1 then .class3 else if c = 2 then .class2 else .class1

/-- `x in Application` as a value test: the members of the `Application`
enumeration (common.py:69-121): 0x19, 0x30..0x5f, 0xDF, 0xCB, 0xFF. -/
def isApplication (c : UInt8) : Bool :=
  c == 0x19 || (0x30 ≤ c && c ≤ 0x5f) || c == 0xdf || c == 0xcb || c == 0xff

/-- `Application(x)` (common.py:69-121): the integer value of the member, or
`ValueError`. -/
def mkApplication (c : UInt8) : Py Int :=
  if isApplication c then .ok c.toNat else .error .valueError

/-- common.py:70 -/
def appTemperature : Int := 0x19
/-- common.py:79 -/
def appLighting : Int := 0x38
/-- common.py:119 -/
def appClock : Int := 0xdf
/-- common.py:120 -/
def appEnable : Int := 0xcb
/-- common.py:121 (`MASTER_APPLICATION = STATUS_REQUEST`) -/
def appStatusRequest : Int := 0xff

/-- common.py:142-146 `GroupState`. -/
inductive GroupState | missing | on | off | error
  deriving DecidableEq, Repr

/-- common.py:143-146. -/
def GroupState.code : GroupState → UInt8
  | .missing => 0
  | .on => 1
  | .off => 2
  | .error => 3

/-- `GroupState(x)` on a two-bit value, where it is total (common.py:142-146,
report.py:102-105). -/
def GroupState.ofBits (c : UInt8) : GroupState :=
  if c = 0 then .missing else if c = 1 then .on else if c = 2 then .off else .error

/-- `IdentifyAttribute(x)` (common.py:149-172): members are exactly 0x00..0x11. -/
def mkIdentifyAttribute (c : UInt8) : Py Int :=
  if c ≤ 0x11 then .ok c.toNat else .error .valueError

/-- common.py:192 `LightCommand.ON` -/
def lcOn : UInt8 := 0x79
/-- common.py:196 `LightCommand.OFF` -/
def lcOff : UInt8 := 0x01
/-- common.py:217 `LightCommand.TERMINATE_RAMP` -/
def lcTerminate : UInt8 := 0x09
/-- common.py:213 `LightCommand.RAMP_SLOWEST` -/
def lcRampSlowest : UInt8 := 0x7a

/-- common.py:224-241 `_LIGHT_RAMP_RATES` with the codes of common.py:198-213,
as (code, seconds), in source order. -/
def lightRampRates : List (UInt8 × Nat) :=
  [(0x02, 0), (0x0a, 4), (0x12, 8), (0x1a, 12), (0x22, 20), (0x2a, 30),
   (0x32, 40), (0x3a, 60), (0x42, 90), (0x4a, 120), (0x52, 180), (0x5a, 300),
   (0x62, 420), (0x6a, 600), (0x72, 900), (0x7a, 1020)]

/-- Insertion step of a stable sort by the second component. -/
def insertBySecond (x : UInt8 × Nat) : List (UInt8 × Nat) → List (UInt8 × Nat)
  | [] => [x]
  | y :: ys => if x.2 ≤ y.2 then x :: y :: ys else y :: insertBySecond x ys

/-- `sorted(items, key=lambda x: x[1])` (stable). -/
def sortBySecond : List (UInt8 × Nat) → List (UInt8 × Nat)
  | [] => []
  | x :: xs => insertBySecond x (sortBySecond xs)

/-- common.py:243-244 `_LIGHT_RAMP_DURATION_TO_RATE`. -/
def durationToRate : List (Nat × UInt8) :=
  (sortBySecond lightRampRates).map fun p => (p.2, p.1)

/-- The `for` loop of common.py:324-328. -/
def durationSearch (seconds : Int) : List (Nat × UInt8) → UInt8
  | [] => lcRampSlowest
  | (d, c) :: rest => if seconds ≤ d then c else durationSearch seconds rest

/-- common.py:314-328 `duration_to_ramp_rate`. -/
def durationToRampRate (seconds : Int) : UInt8 := durationSearch seconds durationToRate

/-- common.py:331-344 `ramp_rate_to_duration`: dictionary lookup, `KeyError`
for a missing key. -/
def rampRateToDuration (rate : Int) : Py Int :=
  match lightRampRates.find? (fun p => (p.1.toNat : Int) == rate) with
  | some p => .ok p.2
  | none => .error .keyError

/-- common.py:303 `CONFIRMATION_CODES = b'hijklmnopqrstuvwxyzg'`. -/
def confirmationCodes : Bytes :=
  [0x68, 0x69, 0x6a, 0x6b, 0x6c, 0x6d, 0x6e, 0x6f, 0x70, 0x71,
   0x72, 0x73, 0x74, 0x75, 0x76, 0x77, 0x78, 0x79, 0x7a, 0x67]

/-- common.py:309 `BRIDGE_LENGTHS`, dictionary lookup (`KeyError`). -/
def bridgeLength (c : UInt8) : Py Nat :=
  if c = 0x09 then .ok 0
  else if c = 0x12 then .ok 1
  else if c = 0x1b then .ok 2
  else if c = 0x24 then .ok 3
  else if c = 0x2d then .ok 4
  else if c = 0x36 then .ok 5
  else .error .keyError

/-- The accumulation loop of common.py:359-361. -/
def sumBytes : Bytes → Nat
  | [] => 0
  | x :: xs => x.toNat + sumBytes xs

/-- common.py:347-365 `cbus_checksum`: `((c & 0xff) ^ 0xff) + 1`, masked. -/
def cbusChecksum (i : Bytes) : UInt8 :=
  let c := sumBytes i
  UInt8.ofNat ((((c &&& 0xff) ^^^ 0xff) + 1) &&& 0xff)

/-- common.py:368-380 `add_cbus_checksum`. -/
def addChecksum (i : Bytes) : Bytes := i ++ [cbusChecksum i]

/-- common.py:396-405 `get_real_cbus_checksum`. -/
def getRealChecksum (i : Bytes) : UInt8 := cbusChecksum i.dropLast

/-- common.py:383-393 `validate_cbus_checksum` (`i[-1]` raises on empty input). -/
def validateChecksum (i : Bytes) : Py Bool :=
  match i.getLast? with
  | none => .error .indexError
  | some l => .ok (l == getRealChecksum i)

/-- common.py:408-417 `validate_ga`. -/
def validateGa (ga : Int) : Bool := decide (0 ≤ ga) && decide (ga ≤ 255)

/-- common.py:420-431 `check_ga`. -/
def checkGa (ga : Int) : Py Unit :=
  if validateGa ga then .ok () else .error .valueError

end CBus
