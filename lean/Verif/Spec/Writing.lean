import Verif.Model.Packet
import Verif.Spec.Codec
import Verif.Spec.Report
import Verif.Spec.Sal
import Verif.Spec.Calendar

/-! What is written for each packet, number by number.

Written down independently of the encoder (C99). Results are byte values, or the
exception with which a packet that cannot be written is refused. -/

namespace CBus.Spec
open CBus

/-- The lowest eight bits. -/
def low (i : Int) : Nat := (i % 256).toNat

/-- A level outside 0 to 255. NaN is not, since it compares with nothing. -/
def LevelOut : PyNum → Prop
  | .int i => i < 0 ∨ 255 < i
  | .flt q => q < 0 ∨ 255 < q
  | .nan => False
  | .inf _ => True

/-- One SAL. -/
inductive SalWritten : SAL → Py (List Nat) → Prop
  | on (ga : Int) (h : IsByte ga) : SalWritten (.lightOn ga) (.ok [0x79, ga.toNat])
  | onRefused (ga : Int) (h : ¬ IsByte ga) : SalWritten (.lightOn ga) (.error .valueError)
  | off (ga : Int) (h : IsByte ga) : SalWritten (.lightOff ga) (.ok [0x01, ga.toNat])
  | offRefused (ga : Int) (h : ¬ IsByte ga) : SalWritten (.lightOff ga) (.error .valueError)
  | terminate (ga : Int) (h : IsByte ga) : SalWritten (.lightTerminate ga) (.ok [0x09, ga.toNat])
  | terminateRefused (ga : Int) (h : ¬ IsByte ga) : SalWritten (.lightTerminate ga) (.error .valueError)
  | ramp (ga d l q : Int) (k : Nat) (h : IsByte ga) (hl : IsByte l) (hq : IsQuantised d q)
      (hk : rampDurations[k]? = some q) : SalWritten (.lightRamp ga d (.int l)) (.ok [rampCode k, ga.toNat, l.toNat])
  | rampLevel (ga d : Int) (l : PyNum) (h : LevelOut l) : SalWritten (.lightRamp ga d l) (.error .valueError)
  | rampGroup (ga d : Int) (l : PyNum) (h : ¬ IsByte ga) : SalWritten (.lightRamp ga d l) (.error .valueError)
  | rampFloat (ga d : Int) (l : PyNum) (h : IsByte ga) (h1 : ¬ LevelOut l) (h2 : ∀ i, l ≠ .int i) :
      SalWritten (.lightRamp ga d l) (.error .typeError)
  | time (t : PyTime) (h : t.Valid) :
      SalWritten (.clockUpdate (.time t)) (.ok [0x0d, 0x01, t.hour, t.minute, t.second, 255])
  | date (d : PyDate) (w : Nat) (h : d.Valid) (hw : IsWeekday d w) :
      SalWritten (.clockUpdate (.date d)) (.ok [0x0e, 0x02, d.year / 256, d.year % 256, d.month, d.day, w])
  | request : SalWritten .clockRequest (.ok [0x11, 0x03])
  | temperature (ga : Int) (t : PyNum) (q : Rat) (h : IsByte ga) (hv : numValue t = some q) (h0 : 0 ≤ q) (h1 : q ≤ 255 / 4) :
      SalWritten (.temperature ga t) (.ok [0x02, ga.toNat, (q * 4).floor.toNat])
  | temperatureRefused (ga : Int) (t : PyNum) (h : ¬ (IsByte ga ∧ TempOk t)) :
      SalWritten (.temperature ga t) (.error .valueError)
  | enable (v x : Int) : SalWritten (.enableSet v x) (.ok [0x02, low v, low x])
  | binaryStatus (ga c : Int) : SalWritten (.statusRequest false ga c) (.ok [0x7a, low c, low ga / 32 * 32])
  | levelStatus (ga c : Int) : SalWritten (.statusRequest true ga c) (.ok [0x73, 0x07, low c, low ga / 32 * 32])

/-- SALs one behind the other; the first that is refused decides. -/
inductive SalsWritten : List SAL → Py (List Nat) → Prop
  | nil : SalsWritten [] (.ok [])
  | cons (s : SAL) (sals : List SAL) (b m : List Nat) (h : SalWritten s (.ok b)) (hm : SalsWritten sals (.ok m)) :
      SalsWritten (s :: sals) (.ok (b ++ m))
  | refused (s : SAL) (sals : List SAL) (e : PyErr) (h : SalWritten s (.error e)) : SalsWritten (s :: sals) (.error e)
  | later (s : SAL) (sals : List SAL) (b : List Nat) (e : PyErr) (h : SalWritten s (.ok b))
      (hm : SalsWritten sals (.error e)) : SalsWritten (s :: sals) (.error e)

/-- The two bits of a group's state. -/
def stateBits : GroupState → Nat
  | .missing => 0 | .on => 1 | .off => 2 | .error => 3

/-- Four states to a byte, the first in the lowest bits, missing ones at the end. -/
inductive StatesWritten : List GroupState → List Nat → Prop
  | nil : StatesWritten [] []
  | one (a : GroupState) : StatesWritten [a] [stateBits a]
  | two (a b : GroupState) : StatesWritten [a, b] [stateBits a + 4 * stateBits b]
  | three (a b c : GroupState) : StatesWritten [a, b, c] [stateBits a + 4 * stateBits b + 16 * stateBits c]
  | four (a b c d : GroupState) (rest : List GroupState) (l : List Nat) (h : StatesWritten rest l) :
      StatesWritten (a :: b :: c :: d :: rest) ((stateBits a + 4 * stateBits b + 16 * stateBits c + 64 * stateBits d) :: l)

/-- Two bytes to a level, Manchester coded, low byte first; zero for a missing one. -/
def levelValues : Option Int → List Nat
  | none => [0, 0]
  | some v => [manchesterWord (low v) % 256, manchesterWord (low v) / 256]

/-- A status report. -/
inductive ReportWritten : Report → List Nat → Prop
  | binary (s : List GroupState) (l : List Nat) (h : StatesWritten s l) : ReportWritten (.binary s) l
  | level (s : List (Option Int)) : ReportWritten (.level s) (s.flatMap levelValues)

/-- The coding of a report, as a number. -/
def reportType : Report → Nat
  | .binary _ => 0
  | .level _ => 7

/-- One CAL. The length of an extended status report has five bits, whatever the length
of the report (see C13), but more than 252 bytes are refused. -/
inductive CalWritten : CAL → Py (List Nat) → Prop
  | identify (a : Int) : CalWritten (.identify a) (.ok [0x21, low a])
  | recall (p c : Int) : CalWritten (.recall p c) (.ok [0x1a, low p, low c])
  | reply (p : Int) (d : Bytes) : CalWritten (.reply p d)
      (.ok ((0x80 + (min d.length 30 + 1)) :: low p :: (d.take 30).map UInt8.toNat))
  | status (ext : Bool) (app blk : Int) (r : Report) (l : List Nat) (h : ReportWritten r l) (hl : l.length + 3 < 256) :
      CalWritten (.extended ext app blk r)
        (.ok ((0xe0 + (l.length + 3) % 32) :: ((if ext then 0x40 else 0) + reportType r) :: low app :: low blk :: l))
  | statusRefused (ext : Bool) (app blk : Int) (r : Report) (l : List Nat) (h : ReportWritten r l) (hl : ¬ l.length + 3 < 256) :
      CalWritten (.extended ext app blk r) (.error .valueError)

/-- CALs one behind the other. -/
inductive CalsWritten : List CAL → Py (List Nat) → Prop
  | nil : CalsWritten [] (.ok [])
  | cons (c : CAL) (cals : List CAL) (b m : List Nat) (h : CalWritten c (.ok b)) (hm : CalsWritten cals (.ok m)) :
      CalsWritten (c :: cals) (.ok (b ++ m))
  | refused (c : CAL) (cals : List CAL) (e : PyErr) (h : CalWritten c (.error e)) : CalsWritten (c :: cals) (.error e)
  | later (c : CAL) (cals : List CAL) (b : List Nat) (e : PyErr) (h : CalWritten c (.ok b))
      (hm : CalsWritten cals (.error e)) : CalsWritten (c :: cals) (.error e)

/-- A priority as a number. -/
def prioNumber : Prio → Nat
  | .class4 => 0 | .class3 => 1 | .class2 => 2 | .class1 => 3

/-- The header: type of address, device management, priority, and the source if there is one. -/
def headerValues (type : Nat) (management : Bool) (prio : Prio) (src : Option Int) : List Nat :=
  (type + (if management then 32 else 0) + 64 * prioNumber prio) :: (src.map low).toList

/-- A checksum makes the sum zero. -/
inductive Summed : Bool → List Nat → List Nat → Prop
  | plain (m : List Nat) : Summed false m m
  | sum (m : List Nat) (c : Nat) (hc : c < 256) (h : (m.sum + c) % 256 = 0) : Summed true m (m ++ [c])

/-- An ordinary packet. -/
inductive MessageWritten : Packet → Py (List Nat) → Prop
  | pm (p : PM) (a : Int) (o m : List Nat) (ha : p.app = some a) (hb : IsByte a) (ho : SalsWritten p.sals (.ok o))
      (hm : Summed p.checksum (headerValues 5 false p.prio p.src ++ a.toNat :: 0 :: o) m) : MessageWritten (.pm p) (.ok m)
  | pmNoApplication (p : PM) (ha : p.app = none) : MessageWritten (.pm p) (.error .valueError)
  | pmApplication (p : PM) (a : Int) (ha : p.app = some a) (hb : ¬ IsByte a) : MessageWritten (.pm p) (.error .valueError)
  | pmRefused (p : PM) (a : Int) (e : PyErr) (ha : p.app = some a) (hb : IsByte a) (ho : SalsWritten p.sals (.error e)) :
      MessageWritten (.pm p) (.error e)
  | pp (p : PP) (o m : List Nat) (hb : p.bridged = false) (hu : IsByte p.unit) (ho : CalsWritten p.cals (.ok o))
      (hm : Summed p.checksum (headerValues 6 false p.prio p.src ++ p.unit.toNat :: 0 :: o) m) : MessageWritten (.pp p) (.ok m)
  | ppBridged (p : PP) (hb : p.bridged = true) : MessageWritten (.pp p) (.error .notImplemented)
  | ppUnit (p : PP) (hb : p.bridged = false) (hu : ¬ IsByte p.unit) : MessageWritten (.pp p) (.error .valueError)
  | ppRefused (p : PP) (e : PyErr) (hb : p.bridged = false) (hu : IsByte p.unit) (ho : CalsWritten p.cals (.error e)) :
      MessageWritten (.pp p) (.error e)
  | dm (p : DM) (m : List Nat)
      (hm : Summed p.checksum (headerValues 3 true p.prio p.src ++ [low p.parameter, 0, low p.value]) m) :
      MessageWritten (.dm p) (.ok m)

/-- The hexadecimal digit of a number below 16. -/
def digit (n : Nat) : UInt8 := if n < 10 then UInt8.ofNat (48 + n) else UInt8.ofNat (65 + (n - 10))

/-- Two digits for each byte. -/
def digits (m : List Nat) : Bytes := m.flatMap fun v => [digit (v / 16), digit (v % 16)]

/-- Any packet, as characters. -/
inductive PacketWritten : Packet → Py Bytes → Prop
  | powerOn : PacketWritten .powerOn (.ok (ascii "++"))
  | error : PacketWritten .pciError (.ok (ascii "!"))
  | confirmed (c : Bytes) : PacketWritten (.confirmation c true) (.ok (c ++ ascii "."))
  | notConfirmed (c : Bytes) : PacketWritten (.confirmation c false) (.ok (c ++ ascii "#"))
  | reset : PacketWritten .reset (.ok (ascii "~"))
  | connect : PacketWritten .smartConnect (.ok (ascii "|"))
  | invalid (b : Bytes) (e : PyErr) : PacketWritten (.invalid b e) (.ok b)
  | message (p : Packet) (r : Py (List Nat)) (h : MessageWritten p r) : PacketWritten p (r.map digits)
  | cal (c : CAL) : PacketWritten (.cal c) (.error .attributeError)

/-- Dates and times as Python has them. -/
def Dated (s : SAL) : Prop := match s with
  | .clockUpdate (.date d) => d.Valid
  | .clockUpdate (.time t) => t.Valid
  | _ => True

end CBus.Spec
