import Verif.Spec.Outlet
import Verif.Spec.Lamp

/-! # Commands on the network, to and from the daemon -/

namespace CBus.Spec
open CBus

/-- What is to become of the lights of a group: switched off, switched on, or brought to a level in
the `k`th of the possible times. -/
inductive Order
  | off
  | on
  | ramp (k : Nat) (level : UInt8)
  deriving DecidableEq, Repr

/-- There are sixteen possible times. -/
def Order.Ok : Order → Prop
  | .ramp k _ => k < 16
  | _ => True

/-- The bytes of a command for a group. -/
def Order.data (ga : UInt8) : Order → Bytes
  | .off => [0x01, ga]
  | .on => [0x79, ga]
  | .ramp k level => [byteOf (rampCode k), ga, level]

/-- The level that the lights come to. -/
def Order.goal : Order → Int
  | .off => 0
  | .on => 255
  | .ramp _ level => level.toNat

/-- The call that a command of another unit makes. -/
def Order.event (src : Option Int) (ga : UInt8) : Order → Event
  | .off => .lightingOff src ga.toNat
  | .on => .lightingOn src ga.toNat
  | .ramp k l => .lightingRamp src ga.toNat (rampDurations.getD k 0) (.int l.toNat)

/-- A line to the PCI that puts a command on the network. -/
def OrderLine (x : UInt8 × Order) (line : Bytes) : Prop :=
  ∃ digits code, x.2.Ok ∧ IsCode code ∧ Spelled true (0x05 :: 0x38 :: 0x00 :: x.2.data x.1) digits ∧
    line = 0x5c :: digits ++ [code, 0x0d]

/-- A line from the PCI that reports a command of another unit. -/
def HeardLine (src : UInt8) (x : UInt8 × Order) (line : Bytes) : Prop :=
  ∃ digits, x.2.Ok ∧ src ≠ 0 ∧ Spelled true (0x05 :: src :: 0x38 :: 0x00 :: x.2.data x.1) digits ∧
    line = digits ++ [0x0d, 0x0a]

/-- Lines and the commands in them. -/
inductive Carry : List Bytes → List (UInt8 × Order) → Prop
  | nil : Carry [] []
  | cons (line : Bytes) (x : UInt8 × Order) (ls : List Bytes) (xs : List (UInt8 × Order)) (h : OrderLine x line)
      (hr : Carry ls xs) : Carry (line :: ls) (x :: xs)

end CBus.Spec
