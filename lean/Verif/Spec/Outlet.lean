import Verif.Spec.Life

/-! # What may leave the daemon towards the PCI

Line by line, by what has just happened to the daemon. -/

namespace CBus.Spec
open CBus

/-- A confirmation code: `g` to `z`. -/
def IsCode (c : UInt8) : Prop := 0x67 ≤ c.toNat ∧ c.toNat ≤ 0x7a

/-- The three settings that the daemon wants of the PCI, as it writes them. -/
def settings : List String := ["A3210038", "A342000E", "A3300059"]

/-- One command for one group of lights. -/
inductive LightCommand (ga : Int) : Bytes → Prop
  | off : LightCommand ga [0x05, 0x38, 0x00, 0x01, byteOf ga]
  | on : LightCommand ga [0x05, 0x38, 0x00, 0x79, byteOf ga]
  | ramp (k : Nat) (level : UInt8) (hk : k < 16) : LightCommand ga [0x05, 0x38, 0x00, byteOf (rampCode k), byteOf ga, level]

/-- What the daemon may write because of something that happens. -/
inductive MayWrite (u : UniTable) (now : Nat → PyDateTime) : DaemonStep → Bytes → Prop
  /-- a reset, when the connection is made -/
  | reset : MayWrite u now .made (ascii "~\r")
  /-- a setting, when the connection is made -/
  | setting (s : String) (c : UInt8) (hs : s ∈ settings) (hc : IsCode c) : MayWrite u now .made (ascii s ++ [c, 0x0d])
  /-- the time, when it is its turn -/
  | tick (n : Nat) (c : UInt8) (line : Bytes) (hc : IsCode c) (h : ClockLine (now n) c line) : MayWrite u now .tick line
  /-- the time, when something is received -/
  | asked (d : Bytes) (n : Nat) (c : UInt8) (line : Bytes) (hc : IsCode c) (h : ClockLine (now n) c line) :
      MayWrite u now (.receive d) line
  /-- a command for one group, when a message for that group has come -/
  | light (topic : Str) (payload : Bytes) (ga : Int) (c : UInt8) (body digits : Bytes) (ht : ForLight u topic ga)
      (hc : IsCode c) (hb : LightCommand ga body) (hs : Spelled true body digits) :
      MayWrite u now (.message topic payload) (0x5c :: digits ++ [c, 0x0d])

/-- Exactly one line: one carriage return, at its end. -/
def OneLine (b : Bytes) : Prop := ∃ t, b = t ++ [0x0d] ∧ (0x0d : UInt8) ∉ t

end CBus.Spec
