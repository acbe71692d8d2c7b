import Verif.Model.Sal
import Verif.Model.Cal

/-! # Packets: `base_packet.py`, `pm_packet.py`, `pp_packet.py`, `dm_packet.py`
and the special packets -/

namespace CBus

/-- base_packet.py:52-57 `flags`. `rc` is omitted: no constructor in `/repo`
passes it, so it is always its default 0 (base_packet.py:39). -/
def flagsByte (dat : DAT) (dp : Bool) (prio : Prio) : UInt8 :=
  (dat.code &&& (0x07 : UInt8)) ||| (if dp then (0x20 : UInt8) else 0) |||
    ((prio.code &&& (0x03 : UInt8)) <<< (6 : UInt8))

/-- base_packet.py:60-65 `BasePacket.encode`: the header bytes. -/
def headerBytes (dat : DAT) (dp : Bool) (prio : Prio) (src : Option Int) : Bytes :=
  match src with
  | none => [flagsByte dat dp prio]
  | some a => [flagsByte dat dp prio, lowByte a]

/-- A `PointToMultipointPacket` (pm_packet.py:29-53, base_packet.py:43-50). -/
structure PM where
  checksum : Bool := true
  prio : Prio := .class4
  app : Option Int := none
  sals : List SAL := []
  conf : Option UInt8 := none
  src : Option Int := none
  deriving DecidableEq, Repr

/-- pm_packet.py:63-72 `append_sal`. The packet afterwards and the result; a
raising call leaves the packet as it was. -/
def PM.appendSal (p : PM) (s : SAL) : PM × Py Unit :=
  match p.app with
  | none => ({ p with app := some s.application, sals := p.sals ++ [s] }, .ok ())
  | some a =>
    if a ≠ s.application then (p, .error .valueError)
    else ({ p with sals := p.sals ++ [s] }, .ok ())

/-- pm_packet.py:74-77 `clear_sal`. -/
def PM.clearSal (p : PM) : PM := { p with sals := [], app := none }

/-- The constructor's loop over `sals` (pm_packet.py:49-53). -/
def PM.appendAll : PM → List SAL → Py PM
  | p, [] => .ok p
  | p, s :: rest =>
    match p.appendSal s with
    | (p', .ok ()) => p'.appendAll rest
    | (_, .error e) => .error e

/-- pm_packet.py:36-53 the constructor. -/
def mkPM (checksum : Bool) (prio : Prio) (app : Option Int) (sals : List SAL) : Py PM :=
  PM.appendAll { checksum := checksum, prio := prio, app := app } sals

/-- pm_packet.py:99-114 `PointToMultipointPacket.decode_packet`. -/
def decodePM (data : Bytes) (checksum : Bool) (prio : Prio) : Py PM := do
  let a ← byteAt data 0
  let app ← mkApplication a
  let r ← byteAt data 1
  if r ≠ 0x00 then throw .valueError
  let handler ← getApplication app
  let sals ← handler.decodeSals (data.drop 2)
  mkPM checksum prio (some app) sals

/-- pm_packet.py:116-136 `encode`. -/
def PM.encode (p : PM) : Py Bytes :=
  match p.app with
  | none => .error .valueError
  | some a => do
    if a < 0 ∨ a > 0xff then throw .valueError
    let ab ← mkByte a
    let o ← encodeSals p.sals
    let r := headerBytes .pm false p.prio p.src ++ (ab :: 0 :: o)
    return if p.checksum then addChecksum r else r

/-- A `PointToPointPacket` (pp_packet.py:34-61). `bridge_address` is not stored
by the code. -/
structure PP where
  checksum : Bool := true
  prio : Prio := .class4
  unit : Int := 0
  hops : List Int := []
  bridged : Bool := false
  cals : List CAL := []
  conf : Option UInt8 := none
  src : Option Int := none
  deriving DecidableEq, Repr

/-- pp_packet.py:36-61 the constructor (with `cals` given; `cals=None` raises
`TypeError` in the code). -/
def mkPP (checksum : Bool) (prio : Prio) (unit bridge : Int) (hops : Option (List Int))
    (cals : List CAL) : Py PP :=
  match hops with
  | none =>
    if bridge ≠ 0 then .error .valueError
    else .ok { checksum, prio, unit, hops := [], bridged := false, cals }
  | some h =>
    if bridge ≤ 0 then .error .valueError
    else .ok { checksum, prio, unit, hops := h, bridged := true, cals }

theorem decodeCal_pos {data : Bytes} {r : CAL × Nat} (h : decodeCal data = .ok r) : 0 < r.2 := by
  unfold decodeCal at h
  simp only [bind, Except.bind, pure, Except.pure, throw, throwThe, MonadExceptOf.throw] at h
  repeat' split at h
  all_goals first
    | (injection h with h; subst h; simp)
    | cases h

/-- pp_packet.py:144-148, the CAL loop. -/
def decodeCals (data : Bytes) : Py (List CAL) :=
  if _hd : data = [] then .ok []
  else
    match _h : decodeCal data with
    | .error e => .error e
    | .ok r =>
      match decodeCals (data.drop r.2) with
      | .error e => .error e
      | .ok l => .ok (r.1 :: l)
termination_by data.length
decreasing_by
  have := decodeCal_pos _h
  have : 0 < data.length := List.length_pos_iff.mpr _hd
  simp; omega

/-- pp_packet.py:134-137, reading `n` hops. -/
def takeHops : Nat → Bytes → Py (List Int × Bytes)
  | 0, d => .ok ([], d)
  | n + 1, d =>
    match d with
    | [] => .error .indexError
    | b :: rest =>
      match takeHops n rest with
      | .error e => .error e
      | .ok (hs, r) => .ok ((b.toNat : Int) :: hs, r)

/-- pp_packet.py:116-152 `PointToPointPacket.decode_packet`. -/
def decodePP (data : Bytes) (checksum : Bool) (prio : Prio) : Py PP := do
  let b1 ← byteAt data 1
  let b0 ← byteAt data 0
  if b1 = 0x00 then
    let cals ← decodeCals (data.drop 2)
    mkPP checksum prio b0.toNat 0 none cals
  else
    let n ← bridgeLength b1
    let (hops, rest) ← takeHops n (data.drop 2)
    let u ← byteAt rest 0
    let cals ← decodeCals (rest.drop 1)
    mkPP checksum prio u.toNat b0.toNat (some hops) cals

/-- The CAL encoding loop of pp_packet.py:164-165. -/
def encodeCals : List CAL → Py Bytes
  | [] => .ok []
  | c :: rest => do
    let b ← c.encode
    let r ← encodeCals rest
    return b ++ r

/-- pp_packet.py:154-174 `encode`. -/
def PP.encode (p : PP) : Py Bytes := do
  if p.bridged then throw .notImplemented
  let u ← mkByte p.unit
  let o ← encodeCals p.cals
  let r := headerBytes .pp false p.prio p.src ++ (u :: 0 :: o)
  return if p.checksum then addChecksum r else r

/-- A `DeviceManagementPacket` (dm_packet.py:26-41). -/
structure DM where
  checksum : Bool := true
  prio : Prio := .class2
  parameter : Int := 0
  value : Int := 0
  conf : Option UInt8 := none
  src : Option Int := none
  deriving DecidableEq, Repr

/-- dm_packet.py:43-64 `decode_packet`. -/
def decodeDM (data : Bytes) (checksum : Bool) (prio : Prio) : Py DM := do
  let parameter ← byteAt data 0
  let z ← byteAt data 1
  if z ≠ 0 then throw .valueError
  let value ← byteAt data 2
  if data.length ≠ 3 then throw .valueError
  return { checksum, prio, parameter := parameter.toNat, value := value.toNat }

/-- dm_packet.py:66-77 `encode`. -/
def DM.encode (p : DM) : Bytes :=
  let r := headerBytes .ppm true p.prio p.src ++ [lowByte p.parameter, 0, lowByte p.value]
  if p.checksum then addChecksum r else r

/-- Everything `decode_packet` can return besides `None`. -/
inductive Packet
  /-- po_packet.py:24-32 -/
  | powerOn
  /-- error_packet.py:24-33 -/
  | pciError
  /-- confirm_packet.py:26-53 -/
  | confirmation (code : Bytes) (success : Bool)
  /-- reset_packet.py:22-28 -/
  | reset
  /-- scs_packet.py:24-30 -/
  | smartConnect
  /-- base_packet.py:107-114 -/
  | invalid (payload : Bytes) (exception : PyErr)
  | pm (p : PM)
  | pp (p : PP)
  | dm (p : DM)
  /-- a bare CAL from direct command access (packet.py:226-228) -/
  | cal (c : CAL)
  deriving DecidableEq, Repr

/-- confirm_packet.py:31-38, the constructor. `code in CONFIRMATION_CODES` is a
substring test, so an empty code is accepted. -/
def mkConfirmation (code : Bytes) (success : Bool) : Py Packet :=
  let c := code.take 1
  match c with
  | [] => .ok (.confirmation c success)
  | b :: _ => if b ∈ confirmationCodes then .ok (.confirmation c success) else .error .valueError

/-- `encode_packet()`: base16 for ordinary packets (base_packet.py:67-68), raw
for special packets (base_packet.py:80-81); confirm_packet.py:40-41,
po_packet.py:29-32, error_packet.py:29-30, reset_packet.py:27-28,
scs_packet.py:29-30, base_packet.py:113-114. A bare CAL has no `encode_packet`
(`AttributeError`). -/
def Packet.encodePacket : Packet → Py Bytes
  | .powerOn => .ok [0x2b, 0x2b]
  | .pciError => .ok [0x21]
  | .confirmation c s => .ok (c ++ [if s then 0x2e else 0x23])
  | .reset => .ok [0x7e]
  | .smartConnect => .ok [0x7c]
  | .invalid p _ => .ok p
  | .pm p => do return b16encode (← p.encode)
  | .pp p => do return b16encode (← p.encode)
  | .dm p => .ok (b16encode p.encode)
  | .cal _ => .error .attributeError

end CBus
