import Verif.Model.Report

/-! # `cbus/protocol/cal/*.py` and `PointToPointPacket.decode_cal` -/

namespace CBus

/-- `AnyCAL` (cal/__init__.py:33): the CALs that can be sent or received inside
a point-to-point packet. -/
inductive CAL
  /-- cal/identify.py:31-39 -/
  | identify (attr : Int)
  /-- cal/recall.py:31-40 -/
  | recall (param count : Int)
  /-- cal/reply.py:30-45 -/
  | reply (parameter : Int) (data : Bytes)
  /-- cal/extended.py:33-41 -/
  | extended (externallyInitiated : Bool) (childApplication blockStart : Int) (report : Report)
  deriving DecidableEq, Repr

/-- extended.py:43-46 `coding_byte`. -/
def codingByte (ext : Bool) (r : Report) : UInt8 :=
  (if ext then 0x40 else 0) ||| (r.blockType &&& 7)

/-- The `encode` methods: identify.py:49-50, recall.py:50-51, reply.py:55-58,
extended.py:48-55. `CAL.EXTENDED_STATUS | (len(report) + 3)` is an unbounded
integer, so `bytes` raises `ValueError` when it exceeds 255. -/
def CAL.encode : CAL → Py Bytes
  | .identify a => .ok [0x21, lowByte a]
  | .recall p c => .ok [0x1a, lowByte p, lowByte c]
  | .reply p d =>
    let d' := d.take 0x1e
    .ok (UInt8.ofNat (0x80 ||| (d'.length + 1)) :: lowByte p :: d')
  | .extended ext app blk r => do
    let rep ← r.encode
    let hd ← mkByte ((0xe0 ||| (rep.length + 3) : Nat) : Int)
    return hd :: codingByte ext r :: lowByte app :: lowByte blk :: rep

/-- extended.py:57-75 `ExtendedCAL.decode_cal`. -/
def extendedDecode (data : Bytes) : Py CAL := do
  let b0 ← byteAt data 0
  let ext := b0 &&& 0x40 > 0
  let blockType := b0 &&& 7
  let app ← byteAt data 1
  let blk ← byteAt data 2
  let payload := data.drop 3
  if blockType = 0x00 then
    return .extended ext app.toNat blk.toNat (.binary (binaryDecode payload))
  else if blockType = 0x07 then
    let states ← levelDecode payload
    return .extended ext app.toNat blk.toNat (.level states)
  else throw .notImplemented

/-- reply.py:47-53 `ReplyCAL.decode_cal`. -/
def replyDecode (data : Bytes) : Py CAL := do
  let p ← byteAt data 0
  return .reply p.toNat (data.drop 1)

/-- pp_packet.py:83-114 `PointToPointPacket.decode_cal`, with the `REQUESTS`
table of cal/__init__.py:28-31 and the decoders identify.py:41-47 and
recall.py:42-48. Returns the CAL and the number of bytes it used. -/
def decodeCal (data : Bytes) : Py (CAL × Nat) := do
  let cmd ← byteAt data 0
  if cmd &&& 0xe0 = 0x80 then
    let calEnd := (cmd &&& 0x1f).toNat + 1
    if data.length < calEnd then throw .valueError
    let c ← replyDecode ((data.take calEnd).drop 1)
    return (c, calEnd)
  else if cmd &&& 0xe0 = 0xc0 then
    throw .notImplemented
  else if cmd &&& 0xe0 = 0xe0 then
    let calEnd := (cmd &&& 0x1f).toNat + 1
    if data.length < calEnd then throw .valueError
    let c ← extendedDecode ((data.take calEnd).drop 1)
    return (c, calEnd)
  else if cmd = 0x21 then
    let b ← byteAt data 1
    let a ← mkIdentifyAttribute b
    return (.identify a, 2)
  else if cmd = 0x1a then
    let p ← byteAt data 1
    let c ← byteAt data 2
    return (.recall p.toNat c.toNat, 3)
  else throw .keyError

/-- standard.py:46-52 `StandardCAL.encode`. -/
def standardCalEncode (childApplication blockStart : Int) (states : List GroupState) : Py Bytes := do
  let rep ← binaryEncode states
  let hd ← mkByte ((0xc0 ||| (rep.length + 3) : Nat) : Int)
  return hd :: lowByte childApplication :: lowByte blockStart :: rep

/-- standard.py:54-68 `StandardCAL.encode_packet`. -/
def standardCalEncodePacket (checksum : Bool) (childApplication blockStart : Int)
    (states : List GroupState) : Py Bytes := do
  let p ← standardCalEncode childApplication blockStart states
  return b16encode (if checksum then addChecksum p else p)

/-- standard.py:34-44 `StandardCAL`, without its `checksum`. -/
structure StandardStatus where
  childApplication : Int
  blockStart : Int
  states : List GroupState
  deriving DecidableEq, Repr

/-- standard.py:70-80 `StandardCAL.decode_cal`. Nothing in the repository calls it. -/
def standardCalDecode (data : Bytes) : Py StandardStatus := do
  let a ← byteAt data 0
  let b ← byteAt data 1
  return ⟨a.toNat, b.toNat, binaryDecode (data.drop 2)⟩

end CBus
