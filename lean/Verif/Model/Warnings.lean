import Verif.Model.Decode

/-! # The warnings of the decoders

`warnings.warn` in `cbus/protocol`, for the default filter that neither raises nor
suppresses: the decoders of `Sal.lean` once more, now with the list of the warnings they
give, in order. A warning given before an exception is in the list. That the results are
the ones of `Sal.lean` is proved in `Props/Warnings.lean`. -/

namespace CBus

/-- One call of `warnings.warn`, with the values that its text contains. -/
inductive Warning
  /-- packet.py:169-170 -/
  | confirmationCode
  /-- packet.py:193-195 -/
  | checksum (data : Bytes)
  /-- lighting.py:85-87 -/
  | lightingStray (data : Bytes)
  /-- lighting.py:95-97 -/
  | lightingUnknown (cmd : UInt8)
  /-- lighting.py:159-161 -/
  | rampWithoutLevel
  /-- clock.py:70-72 -/
  | clockLongForm (cmd : UInt8)
  /-- clock.py:76-79 -/
  | clockOtherBits (cmd : UInt8)
  /-- clock.py:88-90 -/
  | clockUnknown (cmd : UInt8)
  /-- clock.py:146-148 -/
  | dateLength (length : Nat)
  /-- clock.py:161-163 -/
  | timeLength (length : Nat)
  /-- clock.py:172-174 -/
  | clockVariable (var : UInt8)
  /-- clock.py:228-230 -/
  | refreshArgument (argument : UInt8)
  /-- temperature.py:74-76 -/
  | temperatureStray
  /-- temperature.py:85-87 -/
  | temperatureUnknown (cmd : UInt8)
  /-- temperature.py:91-93 -/
  | temperatureLength (cmd : UInt8)
  /-- enable.py:64-66 -/
  | enableStray
  /-- enable.py:74-76 -/
  | enableUnknown (cmd : UInt8)
  /-- enable.py:80-82 -/
  | enableLength (cmd : UInt8)
  /-- status_request.py:70-72 -/
  | statusIncomplete
  deriving DecidableEq, Repr

/-- The warnings of a function and its result. -/
abbrev Warned (α : Type) := List Warning × Py α

/-- One turn of the loop of a `decode_sals`: the warnings `ws` of the turn, the SAL it
appends, and the rest of the loop, which is not reached after an exception. -/
def turn (ws : List Warning) (s : Py (Option SAL)) (r : Warned (List SAL)) : Warned (List SAL) :=
  match s with
  | .error e => (ws, .error e)
  | .ok o => (ws ++ r.1, match r.2 with
    | .error e => .error e
    | .ok l => .ok (consOpt o l))

/-- lighting.py:62-105 `LightingSAL.decode_sals` and 148-168 `LightingRampSAL.decode`. -/
def lightingDecodeW : Bytes → Warned (List SAL)
  | [] => ([], .ok [])
  | [b] => ([.lightingStray [b]], .ok [])
  | cmd :: ga :: rest =>
    match lightHandler cmd with
    | none => ([.lightingUnknown cmd], .ok [])
    | some .on => turn [] ((mkLightOn ga.toNat).map some) (lightingDecodeW rest)
    | some .off => turn [] ((mkLightOff ga.toNat).map some) (lightingDecodeW rest)
    | some .terminate => turn [] ((mkLightTerminate ga.toNat).map some) (lightingDecodeW rest)
    | some .ramp =>
      match rampRateToDuration cmd.toNat with
      | .error e => ([], .error e)
      | .ok duration =>
        match rest with
        | [] => ([.rampWithoutLevel], .ok [])
        | level :: rest' =>
          turn [] ((mkLightRamp ga.toNat duration (.int level.toNat)).map some) (lightingDecodeW rest')

/-- clock.py:130-177 `ClockUpdateSAL.decode(data, command_code)`: the warnings. -/
def clockUpdateWarnings (data : Bytes) (cmd : UInt8) : List Warning :=
  match data with
  | [] => []
  | var :: _ =>
    let len := (cmd &&& 7).toNat
    if var = 0x02 then
      if len ≠ 6 then [.dateLength len] else []
    else if var = 0x01 then
      if len ≠ 5 then [.timeLength len] else []
    else [.clockVariable var]

/-- clock.py:218-233 `ClockRequestSAL.decode`: the warnings. -/
def clockRequestWarnings (data : Bytes) : List Warning :=
  match data with
  | [] => []
  | argument :: _ => if argument ≠ 0x03 then [.refreshArgument argument] else []

/-- clock.py:52-95 `ClockSAL.decode_sals`. -/
def clockDecodeW (d : Bytes) : Warned (List SAL) :=
  match d with
  | [] => ([], .ok [])
  | cmd :: data =>
    if cmd &&& 0x80 = 0x80 then ([.clockLongForm cmd], .ok [])
    else if cmd &&& 0xe0 ≠ 0 then ([.clockOtherBits cmd], .ok [])
    else if cmd &&& 0xf8 = 0x08 then
      match _h : clockUpdateDecode data cmd with
      | .error e => (clockUpdateWarnings data cmd, .error e)
      | .ok r => turn (clockUpdateWarnings data cmd) (.ok r.1) (clockDecodeW r.2)
    else if cmd = 0x11 then
      match _h : clockRequestDecode data with
      | .error e => (clockRequestWarnings data, .error e)
      | .ok r => turn (clockRequestWarnings data) (.ok r.1) (clockDecodeW r.2)
    else ([.clockUnknown cmd], .ok [])
termination_by d.length
decreasing_by
  · have := clockUpdateDecode_length _h; simp; omega
  · have := clockRequestDecode_length _h; simp; omega

/-- temperature.py:55-101, 135-144. -/
def temperatureDecodeW : Bytes → Warned (List SAL)
  | cmd :: ga :: t :: rest =>
    if cmd &&& 0x80 = 0x80 then ([.temperatureUnknown cmd], .ok [])
    else if cmd &&& 0x07 ≠ 2 then ([.temperatureLength cmd], .ok [])
    else turn [] (.ok (some (.temperature ga.toNat (.flt ((t.toNat : Rat) / 4))))) (temperatureDecodeW rest)
  | [] => ([], .ok [])
  | _ => ([.temperatureStray], .ok [])

/-- enable.py:45-89, 116-128. -/
def enableDecodeW : Bytes → Warned (List SAL)
  | cmd :: var :: val :: rest =>
    if cmd &&& 0x80 = 0x80 then ([.enableUnknown cmd], .ok [])
    else if cmd &&& 0x07 ≠ 2 then ([.enableLength cmd], .ok [])
    else turn [] (.ok (some (.enableSet var.toNat val.toNat))) (enableDecodeW rest)
  | [] => ([], .ok [])
  | _ => ([.enableStray], .ok [])

/-- status_request.py:49-86: a short body is warned of (lines 68-72) and then raises
`IndexError` (lines 75-76). -/
def statusDecodeW : Bytes → Warned (List SAL)
  | [] => ([], .ok [])
  | c :: rest =>
    if c = 0x7a ∨ c = 0xfa then
      match rest with
      | app :: ga :: rest' => turn [] (Except.map some (statusBody false app ga)) (statusDecodeW rest')
      | _ => ([.statusIncomplete], .error .indexError)
    else if c = 0x73 then
      match rest with
      | 0x07 :: app :: ga :: rest' => turn [] (Except.map some (statusBody true app ga)) (statusDecodeW rest')
      | 0x07 :: _ => ([.statusIncomplete], .error .indexError)
      | _ => ([], .error .notImplemented)
    else ([], .error .notImplemented)

/-- `handler.decode_sals(data)` (pm_packet.py:110). -/
def AppHandler.decodeSalsW : AppHandler → Bytes → Warned (List SAL)
  | .statusRequest, d => statusDecodeW d
  | .clock, d => clockDecodeW d
  | .enable, d => enableDecodeW d
  | .lighting, d => lightingDecodeW d
  | .temperature, d => temperatureDecodeW d

/-! ### Packets

The functions of `Decode.lean` down to the applications; here only the warnings. -/

/-- pm_packet.py:99-114: the decoder of the application is reached if there are an
application and no routing. -/
def pmWarnings (data : Bytes) : List Warning :=
  match data with
  | a :: r :: rest =>
    match mkApplication a with
    | .error _ => []
    | .ok app =>
      if r ≠ 0x00 then []
      else match getApplication app with
        | .error _ => []
        | .ok handler => (handler.decodeSalsW rest).1
  | _ => []

/-- packet.py:221-246: only point to multipoint packets are decoded with warnings. -/
def dispatchWarnings (dat : DAT) (dp dmCal : Bool) (data : Bytes) : List Warning :=
  if dp then []
  else if dmCal then []
  else match dat with
    | .pm => pmWarnings data
    | _ => []

/-- packet.py:200-257. -/
def bodyWarnings (data : Bytes) (fromPci dmCal : Bool) : List Warning :=
  match data with
  | [] => []
  | flags :: data1 =>
    match DAT.ofCode (flags &&& 0x07) with
    | .error _ => []
    | .ok dat =>
      let dp := flags &&& 0x20 == 0x20
      if fromPci then
        match data1 with
        | [] => []
        | _ :: data2 => dispatchWarnings dat dp dmCal data2
      else dispatchWarnings dat dp dmCal data1

/-- packet.py:183-198: a wrong checksum is warned of when not strict. -/
def rawWarnings (data : Bytes) (checksum strict fromPci dmCal : Bool) : List Warning :=
  if checksum then
    match validateChecksum data with
    | .error _ => []
    | .ok valid =>
      if !valid then
        if strict then [] else .checksum data :: bodyWarnings data.dropLast fromPci dmCal
      else bodyWarnings data.dropLast fromPci dmCal
  else bodyWarnings data fromPci dmCal

/-- packet.py:175-181. -/
def hexWarnings (data : Bytes) (checksum strict fromPci dmCal : Bool) : List Warning :=
  if data.all isHex then
    match b16decode data with
    | .error _ => []
    | .ok raw => rawWarnings raw checksum strict fromPci dmCal
  else []

/-- packet.py:158-173: a confirmation code out of range is warned of when not strict. -/
def confWarnings (data : Bytes) (checksum strict dmCal : Bool) : List Warning :=
  match data.getLast? with
  | none => []
  | some l =>
    if isHex l then hexWarnings data checksum strict false dmCal
    else if l ∉ confirmationCodes then
      if strict then [] else .confirmationCode :: hexWarnings data.dropLast checksum strict false dmCal
    else hexWarnings data.dropLast checksum strict false dmCal

/-- packet.py:143-173. -/
def lineWarnings (line : Bytes) (checksum strict fromPci : Bool) : List Warning :=
  match line with
  | [] => []
  | c :: rest =>
    if fromPci then hexWarnings line checksum strict true false
    else if c = 0x40 then confWarnings rest false strict true
    else if c = 0x5c then confWarnings rest checksum strict false
    else confWarnings line checksum strict true

/-- packet.py:43-257 `decode_packet`: the warnings. -/
def packetWarnings (data : Bytes) (checksum : Bool := true) (strict : Bool := true) (fromPci : Bool := true) :
    List Warning :=
  match (if fromPci then framePci data else frameClient data) with
  | .result _ _ => []
  | .line l _ => lineWarnings l checksum strict fromPci

end CBus
