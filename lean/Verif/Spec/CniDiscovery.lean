import Verif.Model.CniDiscovery

/-! # Discovery as docs/cni-discovery.rst describes it -/

namespace CBus.Spec
open CBus

/-- A query: its first four bytes. -/
def IsQuery (d : Bytes) : Prop := ∃ r, d = 0xcb :: 0x80 :: 0x00 :: 0x00 :: r

/-- The fields of a reply; those of which the meaning is not known are bytes. -/
structure DiscoveryReply where
  unknown1 : Bytes
  product : UInt8
  port : Nat
  unknown6 : UInt8
  unknown8 : Bytes

/-- Its bytes: numbers are big-endian. -/
def DiscoveryReply.Bytes (r : DiscoveryReply) (b : CBus.Bytes) : Prop :=
  r.unknown1.length = 4 ∧ r.unknown8.length = 2 ∧ r.port < 65536 ∧
  b = [0xcb, 0x81, 0x00, 0x00] ++ r.unknown1 ++ [0x81, 0x01, 0x00, 0x01] ++ [r.product] ++ [0x81, 0x0b, 0x00, 0x02] ++
    [UInt8.ofNat (r.port / 256), UInt8.ofNat (r.port % 256)] ++ [0x81, 0x1d, 0x00, 0x01] ++ [r.unknown6] ++
    [0x80, 0x01, 0x00, 0x02] ++ r.unknown8

end CBus.Spec
