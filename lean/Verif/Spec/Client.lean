import Verif.Model.Sal
import Verif.Spec.Sal

/-! What the commands of a `PCIProtocol` mean on the wire. -/

namespace CBus.Spec
open CBus

/-- The public commands of a `PCIProtocol`. -/
inductive ClientCall
  | on (gas : List Int)
  | off (gas : List Int)
  | terminate (gas : List Int)
  | ramp (ga duration : Int) (level : PyNum)
  | identify (unit attr : Int)
  | clock (when_ : PyDateTime)
  | clockNow
  deriving DecidableEq

/-- The calls that are to be accepted: one to nine group addresses, all of them
0..255; a level 0..255; a unit address 0..255. -/
def ClientCall.Ok : ClientCall → Prop
  | .on g => 1 ≤ g.length ∧ g.length ≤ 9 ∧ ∀ a ∈ g, IsByte a
  | .off g => 1 ≤ g.length ∧ g.length ≤ 9 ∧ ∀ a ∈ g, IsByte a
  | .terminate g => 1 ≤ g.length ∧ g.length ≤ 9 ∧ ∀ a ∈ g, IsByte a
  | .ramp g _ l => IsByte g ∧ LevelNumOk l
  | .identify u _ => IsByte u
  | .clock _ => True
  | .clockNow => True

instance : (c : ClientCall) → Decidable c.Ok
  | .on _ | .off _ | .terminate _ | .ramp _ _ _ | .identify _ _ | .clock _ | .clockNow => by
    unfold ClientCall.Ok; infer_instance

/-- What is raised for a level: a number outside 0..255 is a wrong value; one inside
that is not an integer is of the wrong type, and so is NaN. -/
def levelRaises : PyNum → Option PyErr
  | .int i => if IsByte i then none else some .valueError
  | .flt q => if q < 0 ∨ 255 < q then some .valueError else some .typeError
  | .inf _ => some .valueError
  | .nan => some .typeError

/-- What is raised for a list of group addresses. They are checked before the
connection, except that there is none. -/
def groupsRaise (connected : Bool) (g : List Int) : Option PyErr :=
  if 9 < g.length ∨ ¬ ∀ a ∈ g, IsByte a then some .valueError
  else if connected = false then some .ioError
  else if g = [] then some .valueError
  else none

/-- What a call raises, if anything. -/
def ClientCall.raises (connected : Bool) : ClientCall → Option PyErr
  | .on g => groupsRaise connected g
  | .off g => groupsRaise connected g
  | .terminate g => groupsRaise connected g
  | .ramp g _ l => if ¬ IsByte g then some .valueError else if connected = false then some .ioError else levelRaises l
  | .identify u _ => if connected = false then some .ioError else if IsByte u then none else some .valueError
  | .clock _ => if connected = false then some .ioError else none
  | .clockNow => if connected = false then some .ioError else none

/-- A byte holding a number. -/
def byteOf (x : Int) : UInt8 := UInt8.ofNat (x % 256).toNat

/-- Date and time updates, with the day of the week `w`. -/
def clockBytes (t : PyDateTime) (w : Nat) : List UInt8 :=
  [0x0e, 0x02, byteOf (t.date.year / 256), byteOf t.date.year, byteOf t.date.month, byteOf t.date.day, byteOf w,
   0x0d, 0x01, byteOf t.time.hour, byteOf t.time.minute, byteOf t.time.second, 0xff]

/-- The frame (without checksum) of a call, written out from the protocol
documentation: 05 (point to multipoint), application, 00 (no routing),
commands; 06 (point to point), unit, 00, command. `now` is the time when the
call is made, `wd` gives the day of the week of a date. -/
def ClientCall.frame (now : PyDateTime) (wd : PyDate → Nat) : ClientCall → List UInt8
  | .on g => [0x05, 0x38, 0x00] ++ g.flatMap fun a => [0x79, byteOf a]
  | .off g => [0x05, 0x38, 0x00] ++ g.flatMap fun a => [0x01, byteOf a]
  | .terminate g => [0x05, 0x38, 0x00] ++ g.flatMap fun a => [0x09, byteOf a]
  | .ramp g d l => [0x05, 0x38, 0x00, byteOf (rampCode (rampDurations.idxOf (quantise d))), byteOf g,
      match l with | .int i => byteOf i | _ => 0]
  | .identify u a => [0x06, byteOf u, 0x00, 0x21, byteOf a]
  | .clock t => [0x05, 0xdf, 0x00] ++ clockBytes t (wd t.date)
  | .clockNow => [0x05, 0xdf, 0x00] ++ clockBytes now (wd now.date)

/-- A Python `datetime` is always valid. -/
def DateTimeOk (t : PyDateTime) : Prop := t.date.Valid ∧ t.time.Valid

/-- The `datetime` argument of a call, if any, is one. -/
def ClientCall.TimeOk : ClientCall → Prop
  | .clock t => DateTimeOk t
  | _ => True

end CBus.Spec

namespace CBus.Spec
open CBus

/-- The confirmation codes of Clipsal's protocol: `g` to `z`, one byte before the
carriage return that ends a command. -/
def confirmationOf (line : Bytes) : Option UInt8 :=
  match line.reverse with
  | 0x0d :: c :: _ => if 0x67 ≤ c ∧ c ≤ 0x7a then some c else none
  | _ => none

/-- `n` codes in cyclic order starting at position `k`. -/
def cycleFrom (k n : Nat) : List UInt8 :=
  (List.range n).map fun i => (ascii "hijklmnopqrstuvwxyzg").getD ((k + i) % 20) 0

end CBus.Spec
