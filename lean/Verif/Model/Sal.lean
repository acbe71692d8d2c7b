import Verif.Model.Common

/-! # `cbus/protocol/application/*.py` -/

namespace CBus

/-! ## Dates and times (the parts of Python's `datetime` the code relies on) -/

/-- A `datetime.date`. Python only ever builds valid ones; see `PyDate.Valid`. -/
structure PyDate where
  year : Nat
  month : Nat
  day : Nat
  deriving DecidableEq, Repr

/-- A `datetime.time`. -/
structure PyTime where
  hour : Nat
  minute : Nat
  second : Nat
  microsecond : Nat := 0
  deriving DecidableEq, Repr

/-- A `datetime.datetime`. -/
structure PyDateTime where
  date : PyDate
  time : PyTime
  deriving DecidableEq, Repr

/-- CPython `datetime._is_leap`. -/
def isLeap (y : Nat) : Bool := y % 4 == 0 && (y % 100 != 0 || y % 400 == 0)

/-- CPython `datetime._days_in_month`. -/
def daysInMonth (y m : Nat) : Nat :=
  if m = 2 then (if isLeap y then 29 else 28)
  else if m = 4 ∨ m = 6 ∨ m = 9 ∨ m = 11 then 30 else 31

/-- CPython `datetime._days_before_month`. -/
def daysBeforeMonth (y : Nat) : Nat → Nat
  | 0 => 0
  | 1 => 0
  | m + 1 => daysBeforeMonth y m + daysInMonth y m

/-- CPython `datetime._days_before_year`. -/
def daysBeforeYear (y : Nat) : Nat :=
  (y - 1) * 365 + (y - 1) / 4 - (y - 1) / 100 + (y - 1) / 400

/-- CPython `date.toordinal`. -/
def PyDate.toOrdinal (d : PyDate) : Nat :=
  daysBeforeYear d.year + daysBeforeMonth d.year d.month + d.day

/-- CPython `date.weekday`: `(self.toordinal() + 6) % 7`. -/
def PyDate.weekday (d : PyDate) : Nat := (d.toOrdinal + 6) % 7

/-- What Python's `date(y, m, d)` accepts. -/
def PyDate.Valid (d : PyDate) : Prop :=
  1 ≤ d.year ∧ d.year ≤ 9999 ∧ 1 ≤ d.month ∧ d.month ≤ 12 ∧
  1 ≤ d.day ∧ d.day ≤ daysInMonth d.year d.month

instance (d : PyDate) : Decidable d.Valid := by unfold PyDate.Valid; infer_instance

/-- What Python's `time(h, m, s, us)` accepts. -/
def PyTime.Valid (t : PyTime) : Prop :=
  t.hour < 24 ∧ t.minute < 60 ∧ t.second < 60 ∧ t.microsecond < 1000000

instance (t : PyTime) : Decidable t.Valid := by unfold PyTime.Valid; infer_instance

/-- `date(y, m, d)`. -/
def mkDate (y m d : Nat) : Py PyDate :=
  if PyDate.Valid ⟨y, m, d⟩ then .ok ⟨y, m, d⟩ else .error .valueError

/-- `time(h, m, s)`. -/
def mkTime (h m s : Nat) : Py PyTime :=
  if PyTime.Valid ⟨h, m, s, 0⟩ then .ok ⟨h, m, s, 0⟩ else .error .valueError

/-- `struct.pack('>B', n)` -/
def packB (n : Nat) : Py UInt8 :=
  if n < 256 then .ok (UInt8.ofNat n) else .error .structError

/-- `struct.pack('>H', n)` -/
def packH (n : Nat) : Py Bytes :=
  if n < 65536 then .ok [UInt8.ofNat (n / 256), UInt8.ofNat (n % 256)] else .error .structError

/-- Value of a `ClockUpdateSAL` (clock.py:114-128): a date or a time. -/
inductive ClockVal
  | date (d : PyDate)
  | time (t : PyTime)
  deriving DecidableEq, Repr

/-! ## SALs -/

/-- All SAL classes of the five applications. -/
inductive SAL
  /-- lighting.py:186-205 -/
  | lightOn (ga : Int)
  /-- lighting.py:208-227 -/
  | lightOff (ga : Int)
  /-- lighting.py:230-252 -/
  | lightTerminate (ga : Int)
  /-- lighting.py:122-148. `duration` is modelled for integers only. -/
  | lightRamp (ga : Int) (duration : Int) (level : PyNum)
  /-- clock.py:98-128 -/
  | clockUpdate (val : ClockVal)
  /-- clock.py:204-216 -/
  | clockRequest
  /-- temperature.py:111-133 -/
  | temperature (ga : Int) (t : PyNum)
  /-- enable.py:92-114 -/
  | enableSet (var value : Int)
  /-- status_request.py:43-47 -/
  | statusRequest (levelRequest : Bool) (ga : Int) (child : Int)
  deriving DecidableEq, Repr

/-- The `application` properties: lighting.py:62-65, clock.py:48-50,
temperature.py:51-53, enable.py:41-43, status_request.py:88-90. -/
def SAL.application : SAL → Int
  | .lightOn _ | .lightOff _ | .lightTerminate _ | .lightRamp _ _ _ => appLighting
  | .clockUpdate _ | .clockRequest => appClock
  | .temperature _ _ => appTemperature
  | .enableSet _ _ => appEnable
  | .statusRequest _ _ _ => appStatusRequest

/-! ### Lighting -/

/-- `LightingOnSAL(ga)`: constructor check lighting.py:52-60. -/
def mkLightOn (ga : Int) : Py SAL := do checkGa ga; return .lightOn ga
/-- `LightingOffSAL(ga)`: constructor check lighting.py:52-60. -/
def mkLightOff (ga : Int) : Py SAL := do checkGa ga; return .lightOff ga
/-- `LightingTerminateRampSAL(ga)`: constructor check lighting.py:52-60. -/
def mkLightTerminate (ga : Int) : Py SAL := do checkGa ga; return .lightTerminate ga
/-- `LightingRampSAL(ga, duration, level)`: lighting.py:131-148, 52-60. -/
def mkLightRamp (ga duration : Int) (level : PyNum) : Py SAL := do
  checkGa ga; return .lightRamp ga duration level

/-- Which decoder `_SAL_HANDLERS` selects (lighting.py:256-266). -/
inductive LightKind | on | off | terminate | ramp
  deriving DecidableEq, Repr

/-- `_SAL_HANDLERS.get(command_code)` (lighting.py:256-266). The ramp codes are
the keys of `_LIGHT_RAMP_RATES`. -/
def lightHandler (c : UInt8) : Option LightKind :=
  if c = lcOn then some .on
  else if c = lcOff then some .off
  else if c = lcTerminate then some .terminate
  else if lightRampRates.any (fun p => p.1 == c) then some .ramp
  else none

/-- lighting.py:67-105 `LightingSAL.decode_sals` with the per-class `decode`
methods (lighting.py:150-168, 193-199, 215-221, 238-244). Warnings are not
modelled. -/
def lightingDecode : Bytes → Py (List SAL)
  | [] => .ok []
  | [_] => .ok []
  | cmd :: ga :: rest =>
    match lightHandler cmd with
    | none => .ok []
    | some .on => do
      let s ← mkLightOn ga.toNat
      return s :: (← lightingDecode rest)
    | some .off => do
      let s ← mkLightOff ga.toNat
      return s :: (← lightingDecode rest)
    | some .terminate => do
      let s ← mkLightTerminate ga.toNat
      return s :: (← lightingDecode rest)
    | some .ramp =>
      match rampRateToDuration cmd.toNat with
      | .error e => .error e
      | .ok duration =>
        match rest with
        | [] => .ok []
        | level :: rest' => do
          let s ← mkLightRamp ga.toNat duration (.int level.toNat)
          return s :: (← lightingDecode rest')

/-! ### Clock -/

/-- clock.py:130-177 `ClockUpdateSAL.decode(data, command_code)`. -/
def clockUpdateDecode (data : Bytes) (cmd : UInt8) : Py (Option SAL × Bytes) := do
  let var ← byteAt data 0
  let len := (cmd &&& 7).toNat
  let val := (data.take len).drop 1
  let data := data.drop len
  if var = 0x02 then
    if len ≠ 6 then return (none, data)
    match val with
    | [yh, yl, m, d, _] =>
      let dt ← mkDate (yh.toNat * 256 + yl.toNat) m.toNat d.toNat
      return (some (.clockUpdate (.date dt)), data)
    | _ => throw .structError
  else if var = 0x01 then
    if len ≠ 5 then return (none, data)
    match val with
    | [h, m, s, _] =>
      let t ← mkTime h.toNat m.toNat s.toNat
      return (some (.clockUpdate (.time t)), data)
    | _ => throw .structError
  else return (none, data.drop len)

/-- clock.py:218-233 `ClockRequestSAL.decode`. -/
def clockRequestDecode (data : Bytes) : Py (Option SAL × Bytes) := do
  let argument ← byteAt data 0
  let data := data.drop 1
  if argument ≠ 0x03 then return (none, data)
  return (some .clockRequest, data)

theorem clockUpdateDecode_length {data : Bytes} {cmd : UInt8} {r : Option SAL × Bytes}
    (h : clockUpdateDecode data cmd = .ok r) : r.2.length ≤ data.length := by
  unfold clockUpdateDecode at h
  cases hv : byteAt data 0 with
  | error e => simp [hv, bind, Except.bind] at h
  | ok v =>
    simp only [hv, bind, Except.bind, pure, Except.pure, throw, throwThe,
      MonadExceptOf.throw] at h
    repeat' split at h
    all_goals first
      | (injection h with h; subst h; simp <;> omega)
      | cases h

theorem clockRequestDecode_length {data : Bytes} {r : Option SAL × Bytes}
    (h : clockRequestDecode data = .ok r) : r.2.length ≤ data.length := by
  unfold clockRequestDecode at h
  cases hv : byteAt data 0 with
  | error e => simp [hv, bind, Except.bind] at h
  | ok v =>
    simp only [hv, bind, Except.bind, pure, Except.pure] at h
    repeat' split at h
    all_goals (injection h with h; subst h; simp)

/-- Append an optional SAL to the front of the remaining output
(`if sal: output.append(sal)`, e.g. clock.py:93-94). -/
def consOpt : Option SAL → List SAL → List SAL
  | some s, l => s :: l
  | none, l => l

/-- clock.py:52-95 `ClockSAL.decode_sals`. -/
def clockDecode (d : Bytes) : Py (List SAL) :=
  match d with
  | [] => .ok []
  | cmd :: data =>
    if cmd &&& 0x80 = 0x80 then .ok []
    else if cmd &&& 0xe0 ≠ 0 then .ok []
    else if cmd &&& 0xf8 = 0x08 then
      match _h : clockUpdateDecode data cmd with
      | .error e => .error e
      | .ok r =>
        match clockDecode r.2 with
        | .error e => .error e
        | .ok l => .ok (consOpt r.1 l)
    else if cmd = 0x11 then
      match _h : clockRequestDecode data with
      | .error e => .error e
      | .ok r =>
        match clockDecode r.2 with
        | .error e => .error e
        | .ok l => .ok (consOpt r.1 l)
    else .ok []
termination_by d.length
decreasing_by
  · have := clockUpdateDecode_length _h; simp; omega
  · have := clockRequestDecode_length _h; simp; omega

/-- clock.py:262-280 `clock_update_sal` for a `datetime`: date first, then time. -/
def clockUpdateSal (dt : PyDateTime) : List SAL :=
  [.clockUpdate (.date dt.date), .clockUpdate (.time dt.time)]

/-- The argument of `clock_update_sal`. `datetime` is a subclass of `date` and is
asked for first. -/
inductive ClockArg
  | date (d : PyDate)
  | time (t : PyTime)
  | datetime (dt : PyDateTime)
  | other

/-- clock.py:262-280 `clock_update_sal` for every argument. -/
def clockUpdateSalOf : ClockArg → Py (List SAL)
  | .datetime dt => .ok (clockUpdateSal dt)
  | .date d => .ok [.clockUpdate (.date d)]
  | .time t => .ok [.clockUpdate (.time t)]
  | .other => .error .typeError

/-- clock.py:106-108 `is_date`. -/
def ClockVal.isDate : ClockVal → Bool
  | .date _ => true
  | .time _ => false

/-- clock.py:110-112 `is_time`. -/
def ClockVal.isTime : ClockVal → Bool
  | .date _ => false
  | .time _ => true

/-! ### Temperature, enable, status request -/

/-- temperature.py:55-101, 135-144. -/
def temperatureDecode : Bytes → List SAL
  | cmd :: ga :: t :: rest =>
    if cmd &&& 0x80 = 0x80 then []
    else if cmd &&& 0x07 ≠ 2 then []
    else .temperature ga.toNat (.flt ((t.toNat : Rat) / 4)) :: temperatureDecode rest
  | _ => []

/-- enable.py:45-89, 116-128. -/
def enableDecode : Bytes → List SAL
  | cmd :: var :: val :: rest =>
    if cmd &&& 0x80 = 0x80 then []
    else if cmd &&& 0x07 ≠ 2 then []
    else .enableSet var.toNat val.toNat :: enableDecode rest
  | _ => []

/-- status_request.py:74-84, one request body after its type bytes. -/
def statusBody (level : Bool) (app ga : UInt8) : Py SAL :=
  if ga &&& 0x1f ≠ 0 then .error .valueError
  else .ok (.statusRequest level ga.toNat app.toNat)

/-- status_request.py:49-86. A short body raises `IndexError` (lines 75-76). -/
def statusDecode : Bytes → Py (List SAL)
  | [] => .ok []
  | c :: rest =>
    if c = 0x7a ∨ c = 0xfa then
      match rest with
      | app :: ga :: rest' => do
        let s ← statusBody false app ga
        return s :: (← statusDecode rest')
      | _ => .error .indexError
    else if c = 0x73 then
      match rest with
      | 0x07 :: app :: ga :: rest' => do
        let s ← statusBody true app ga
        return s :: (← statusDecode rest')
      | 0x07 :: _ => .error .indexError
      | _ => .error .notImplemented
    else .error .notImplemented

/-! ### Encoding -/

/-- `ClockUpdateSAL.encode` for one value (clock.py:179-198). -/
def clockValEncode : ClockVal → Py Bytes
  | .time t => do
    let h ← packB t.hour
    let m ← packB t.minute
    let s ← packB t.second
    return [0x08 ||| 5, 0x01, h, m, s, 255]
  | .date d => do
    let y ← packH d.year
    let m ← packB d.month
    let dd ← packB d.day
    let w ← packB d.weekday
    return [0x08 ||| 6, 0x02] ++ y ++ [m, dd, w]

/-- `int(self.temperature * 4)` (temperature.py:154) as a byte; only reached
when the temperature is a number in range (temperature.py:147). -/
def tempByte : PyNum → Py UInt8
  | .int i => mkByte (i * 4)
  | .flt q => mkByte (truncRat (q * 4))
  | .nan => .error .valueError
  | .inf _ => .error .overflowError

/-- The `encode` methods of all SALs: lighting.py:107-113, 170-178, 201-202,
223-224, 246-248; clock.py:179-198, 235-237; temperature.py:103-108, 146-155;
enable.py:130-136; status_request.py:92-100. -/
def SAL.encode : SAL → Py Bytes
  | .lightOn ga => do
    checkGa ga
    let g ← mkByte ga
    return [lcOn, g]
  | .lightOff ga => do
    checkGa ga
    let g ← mkByte ga
    return [lcOff, g]
  | .lightTerminate ga => do
    checkGa ga
    let g ← mkByte ga
    return [lcTerminate, g]
  | .lightRamp ga duration level => do
    if level.ltRat 0 || level.gtRat 255 then throw .valueError
    checkGa ga
    let g ← mkByte ga
    let l ← level.toByte
    return [durationToRampRate duration, g, l]
  | .clockUpdate v => clockValEncode v
  | .clockRequest => .ok [0x11, 0x03]
  | .temperature ga t => do
    if !(t.geRat 0 && t.leRat (255 / 4)) then throw .valueError
    checkGa ga
    let g ← mkByte ga
    let b ← tempByte t
    return [0x02, g, b]
  | .enableSet var val => .ok [0x02, lowByte var, lowByte val]
  | .statusRequest level ga child =>
    if level then .ok [0x73, 0x07, lowByte child, lowByte ga &&& 0xe0]
    else .ok [0x7a, lowByte child, lowByte ga &&& 0xe0]

/-- The encoding loop of `PointToMultipointPacket.encode` (pm_packet.py:126-127). -/
def encodeSals : List SAL → Py Bytes
  | [] => .ok []
  | s :: rest => do
    let b ← s.encode
    let r ← encodeSals rest
    return b ++ r

/-! ### Registry -/

/-- The registered application handlers (application/__init__.py:32-38). -/
inductive AppHandler | statusRequest | clock | enable | lighting | temperature
  deriving DecidableEq, Repr

/-- `supported_applications()`: lighting.py:40-44, 282-284; clock.py:249-251;
temperature.py:167-169; enable.py:148-150; status_request.py:30-36. -/
def AppHandler.supported : AppHandler → List Int
  | .statusRequest => [appStatusRequest]
  | .clock => [appClock]
  | .enable => [appEnable]
  | .lighting => (List.range 0x30).map fun i => ((0x30 + i : Nat) : Int)
  | .temperature => [appTemperature]

/-- A registry: application ID to handler, most recent first
(application/__init__.py:39). -/
abbrev Registry := List (Int × AppHandler)

/-- `new_apps_dict.get(app_id)`. -/
def Registry.get (r : Registry) (id : Int) : Option AppHandler :=
  (r.find? (fun p => p.1 == id)).map (·.2)

/-- application/__init__.py:63-71, over the list of IDs to add. -/
def registerLoop (app : AppHandler) : List Int → Registry → Py Registry
  | [], r => .ok r
  | id :: ids, r =>
    match r.get id with
    | some existing => if existing ≠ app then .error .valueError else registerLoop app ids ((id, app) :: r)
    | none => registerLoop app ids ((id, app) :: r)

/-- application/__init__.py:46-73 `_register_application`, for an application
class `app` whose `supported_applications()` is `ids`. Returns the registry
afterwards and the result; on error the registry is unchanged because the loop
works on a copy. -/
def registerApplication (ids : List Int) (app : AppHandler) (r : Registry) : Registry × Py Unit :=
  if ids.all (fun i => decide (0 ≤ i) && decide (i ≤ 0xff)) then
    match registerLoop app ids r with
    | .ok r' => (r', .ok ())
    | .error e => (r, .error e)
  else (r, .error .valueError)

/-- application/__init__.py:76-77: all five applications registered (the
iteration order over the `frozenset` does not matter, see `Props`). -/
def builtinRegistry : Registry :=
  [AppHandler.statusRequest, .clock, .enable, .lighting, .temperature].foldl
    (fun r a => (registerApplication a.supported a r).1) []

/-- application/__init__.py:42-43 `get_application`. -/
def getApplication (id : Int) : Py AppHandler :=
  match builtinRegistry.get id with
  | some h => .ok h
  | none => .error .keyError

/-- `handler.decode_sals(data)` (pm_packet.py:110). -/
def AppHandler.decodeSals : AppHandler → Bytes → Py (List SAL)
  | .statusRequest, d => statusDecode d
  | .clock, d => clockDecode d
  | .enable, d => .ok (enableDecode d)
  | .lighting, d => lightingDecode d
  | .temperature, d => .ok (temperatureDecode d)

end CBus
