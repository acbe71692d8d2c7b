import Verif.Model.Common

/-! # `cbus/protocol/cal/report.py` -/

namespace CBus

/-- report.py:35 `_MANCHESTER_NIBBLES`. -/
def manchesterNibbles : List UInt8 := [0xa, 0x9, 0x6, 0x5]

/-- `_MANCHESTER_NIBBLES.index(n)`; `none` is the `ValueError` of report.py:40-44. -/
def nibbleIndex (n : UInt8) : Option UInt8 := (manchesterNibbles.idxOf? n).map UInt8.ofNat

/-- `_MANCHESTER_NIBBLES[i]` for `i` in `0..3` (report.py:61-64). -/
def nibbleOf (i : UInt8) : UInt8 := manchesterNibbles.getD i.toNat 0

/-- report.py:38-47 `manchester_decode` on the two bytes it reads. -/
def manchesterDecode2 (b0 b1 : UInt8) : Option UInt8 :=
  match nibbleIndex (b0 &&& 0xf), nibbleIndex (b0 >>> 4),
        nibbleIndex (b1 &&& 0xf), nibbleIndex (b1 >>> 4) with
  | some n0, some n1, some n2, some n3 => some (n0 ||| n1 <<< 2 ||| n2 <<< 4 ||| n3 <<< 6)
  | _, _, _, _ => none

/-- report.py:38-47 `manchester_decode(b)`. `b[0]` is examined before `b[1]`,
so a bad first byte of a one-byte input gives `None` and a good one raises
`IndexError`. -/
def manchesterDecode (b : Bytes) : Py (Option UInt8) :=
  match b with
  | [] => .error .indexError
  | [b0] =>
    match nibbleIndex (b0 &&& 0xf), nibbleIndex (b0 >>> 4) with
    | some _, some _ => .error .indexError
    | _, _ => .ok none
  | b0 :: b1 :: _ => .ok (manchesterDecode2 b0 b1)

/-- report.py:60-64, the two code bytes of a value already masked to a byte. -/
def manchesterPair (v : UInt8) : UInt8 × UInt8 :=
  (nibbleOf (v &&& 3) ||| nibbleOf (v >>> 2 &&& 3) <<< 4,
   nibbleOf (v >>> 4 &&& 3) ||| nibbleOf (v >>> 6 &&& 3) <<< 4)

/-- report.py:50-65 `manchester_encode(value, buf, off)` for `off >= 0`; the
default `buf=None` is a fresh two-byte buffer. The returned buffer is the
(mutated) argument. -/
def manchesterEncode (value : Option Int) (buf : Bytes := [0, 0]) (off : Nat := 0) : Py Bytes :=
  if buf.length < off + 2 then .error .indexError
  else match value with
    | none => .ok buf
    | some v =>
      let p := manchesterPair (lowByte v)
      .ok ((buf.set off p.1).set (off + 1) p.2)

/-- `buf[i] = v` for a `bytearray`: an index below 0 counts from the end. -/
def setItem (buf : Bytes) (i : Int) (v : UInt8) : Py Bytes :=
  let j := if i < 0 then i + buf.length else i
  if 0 ≤ j ∧ j < buf.length then .ok (buf.set j.toNat v) else .error .indexError

/-- report.py:50-65 `manchester_encode(value, buf, off)` for every `off`. -/
def manchesterEncodeAt (value : Option Int) (buf : Bytes) (off : Int) : Py Bytes :=
  if (buf.length : Int) < off + 2 then .error .indexError
  else match value with
    | none => .ok buf
    | some v =>
      let p := manchesterPair (lowByte v)
      match setItem buf off p.1 with
      | .ok b => setItem b (off + 1) p.2
      | .error e => .error e

/-- The two kinds of `StatusReport` (report.py:84-212). -/
inductive Report
  | binary (states : List GroupState)
  | level (states : List (Option Int))
  deriving DecidableEq, Repr

/-- report.py:97-107 `BinaryStatusReport.decode`. -/
def binaryDecode : Bytes → List GroupState
  | [] => []
  | c :: cs =>
    GroupState.ofBits (c &&& 3) :: GroupState.ofBits (c >>> 2 &&& 3) ::
    GroupState.ofBits (c >>> 4 &&& 3) :: GroupState.ofBits (c >>> 6 &&& 3) :: binaryDecode cs

/-- report.py:120-126, four group states at a time. The list has been padded to
a multiple of four; the remaining patterns are unreachable and raise as Python
would. -/
def binaryPack : List GroupState → Py Bytes
  | [] => .ok []
  | a :: b :: c :: d :: rest =>
    match binaryPack rest with
    | .ok r => .ok ((a.code ||| b.code <<< 2 ||| c.code <<< 4 ||| d.code <<< 6) :: r)
    | .error e => .error e
  | _ => .error .indexError

/-- report.py:113-118, the padding step of `BinaryStatusReport.encode`. -/
def binaryPad (states : List GroupState) : List GroupState :=
  let r := states.length % 4
  if r ≠ 0 then states ++ List.replicate (4 - r) .missing else states

/-- report.py:113-128 `BinaryStatusReport.encode`. -/
def binaryEncode (states : List GroupState) : Py Bytes := binaryPack (binaryPad states)

/-- report.py:196-197, two bytes at a time. -/
def levelDecodeGo : Bytes → List (Option Int)
  | b0 :: b1 :: rest =>
    (manchesterDecode2 b0 b1).map (fun v => (v.toNat : Int)) :: levelDecodeGo rest
  | _ => []

/-- report.py:189-199 `LevelStatusReport.decode`. -/
def levelDecode (data : Bytes) : Py (List (Option Int)) :=
  if data.length % 2 ≠ 0 then .error .valueError else .ok (levelDecodeGo data)

/-- report.py:209-210, the encoding loop: `manchester_encode(state, o, i * 2)`
for successive `i`. -/
def levelEncodeGo : List (Option Int) → Nat → Bytes → Py Bytes
  | [], _, o => .ok o
  | s :: rest, i, o =>
    match manchesterEncode s o (i * 2) with
    | .ok o' => levelEncodeGo rest (i + 1) o'
    | .error e => .error e

/-- report.py:205-212 `LevelStatusReport.encode`. -/
def levelEncode (states : List (Option Int)) : Py Bytes :=
  levelEncodeGo states 0 (List.replicate (states.length * 2) 0)

/-- `report.encode()` for either kind. -/
def Report.encode : Report → Py Bytes
  | .binary s => binaryEncode s
  | .level s => levelEncode s

/-- report.py:110-111, 202-203 `block_type` (common.py:138-139). -/
def Report.blockType : Report → UInt8
  | .binary _ => 0x00
  | .level _ => 0x07

end CBus
