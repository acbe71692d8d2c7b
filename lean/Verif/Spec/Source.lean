import Verif.Spec.Session
import Verif.Spec.Mqtt

/-! # Where an event of a light comes from -/

namespace CBus.Spec
open CBus

/-- A line, without its end, says that something has happened to a light: it spells, in hexadecimal
digits, bytes that sum to zero; these are a message to all units (`flags`), from a unit, of the
default lighting application, not routed; and one of its commands is the event. -/
def LineSays (line : Bytes) (e : Event) : Prop :=
  ∃ (flags src x : UInt8) (data : Bytes) (sals : List SAL) (s : SAL),
    HexPairs line (flags :: src :: 0x38 :: 0x00 :: data ++ [x]) ∧
    SumsToZero (flags :: src :: 0x38 :: 0x00 :: data ++ [x]) ∧
    flags.toNat % 8 = 5 ∧ flags.toNat / 32 % 2 = 0 ∧ Reads .lighting data (.ok sals) ∧ s ∈ sals ∧
    salEvent (if src = 0 then none else some src.toNat) s = some e

end CBus.Spec
