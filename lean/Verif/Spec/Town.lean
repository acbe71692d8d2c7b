import Verif.Spec.Street

/-! # Several daemons on one network and one broker -/

namespace CBus.Spec
open CBus

/-- What the other units of the network are told of a line that a daemon writes to its PCI, whose unit
address is `src`: a command for the network comes to them with the sender's address in it. Resets and
settings stay with the PCI. -/
def Overheard (src : UInt8) (line heard : Bytes) : Prop :=
  ∃ app data digits digits' code, IsCode code ∧ src ≠ 0 ∧
    Spelled true (0x05 :: app :: 0x00 :: data) digits ∧ line = 0x5c :: digits ++ [code, 0x0d] ∧
    Spelled true (0x05 :: src :: app :: 0x00 :: data) digits' ∧ heard = digits' ++ [0x0d, 0x0a]

end CBus.Spec
