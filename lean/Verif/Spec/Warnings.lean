import Verif.Model.Warnings
import Verif.Spec.Grammar

/-! # What is to be warned of

For the data of an application, in the terms of the grammar of `Spec/Grammar.lean`: the
commands that are skipped, the places where the rest of the data is given up, and the
requests that are cut off. -/

namespace CBus.Spec

/-- The warning for a command that is skipped. -/
inductive Skipped : Bytes → Warning → Prop
  | request (a : UInt8) (rest : Bytes) (h : a ≠ 0x03) : Skipped (0x11 :: a :: rest) (.refreshArgument a)
  | date (cmd : UInt8) (rest : Bytes) (h : cmd.toNat / 8 = 1) (hc : cmd ≠ 0x0e) :
      Skipped (cmd :: 0x02 :: rest) (.dateLength (cmd.toNat % 8))
  | time (cmd : UInt8) (rest : Bytes) (h : cmd.toNat / 8 = 1) (hc : cmd ≠ 0x0d) :
      Skipped (cmd :: 0x01 :: rest) (.timeLength (cmd.toNat % 8))
  | other (cmd var : UInt8) (rest : Bytes) (h : cmd.toNat / 8 = 1) (h1 : var ≠ 0x01) (h2 : var ≠ 0x02) :
      Skipped (cmd :: var :: rest) (.clockVariable var)

/-- The warning for data that are given up from here on. -/
inductive GivenUp : AppHandler → Bytes → Warning → Prop
  | lightingStray (b : UInt8) : GivenUp .lighting [b] (.lightingStray [b])
  | lightingUnknown (cmd ga : UInt8) (rest : Bytes) (h : cmd ∉ [0x79, 0x01, 0x09])
      (hr : ∀ k < 16, cmd.toNat ≠ rampCode k) : GivenUp .lighting (cmd :: ga :: rest) (.lightingUnknown cmd)
  | rampWithoutLevel (k : Nat) (cmd ga : UInt8) (hk : k < 16) (hc : cmd.toNat = rampCode k) :
      GivenUp .lighting [cmd, ga] .rampWithoutLevel
  | clockLongForm (cmd : UInt8) (rest : Bytes) (h : 128 ≤ cmd.toNat) :
      GivenUp .clock (cmd :: rest) (.clockLongForm cmd)
  | clockOtherBits (cmd : UInt8) (rest : Bytes) (h1 : 32 ≤ cmd.toNat) (h2 : cmd.toNat < 128) :
      GivenUp .clock (cmd :: rest) (.clockOtherBits cmd)
  | clockUnknown (cmd : UInt8) (rest : Bytes) (h1 : cmd.toNat < 32) (h2 : cmd.toNat / 8 ≠ 1) (h3 : cmd ≠ 0x11) :
      GivenUp .clock (cmd :: rest) (.clockUnknown cmd)
  | temperatureStray (d : Bytes) (h1 : d ≠ []) (h2 : d.length < 3) : GivenUp .temperature d .temperatureStray
  | temperatureUnknown (cmd ga t : UInt8) (rest : Bytes) (h : 128 ≤ cmd.toNat) :
      GivenUp .temperature (cmd :: ga :: t :: rest) (.temperatureUnknown cmd)
  | temperatureLength (cmd ga t : UInt8) (rest : Bytes) (h1 : cmd.toNat < 128) (h2 : cmd.toNat % 8 ≠ 2) :
      GivenUp .temperature (cmd :: ga :: t :: rest) (.temperatureLength cmd)
  | enableStray (d : Bytes) (h1 : d ≠ []) (h2 : d.length < 3) : GivenUp .enable d .enableStray
  | enableUnknown (cmd var val : UInt8) (rest : Bytes) (h : 128 ≤ cmd.toNat) :
      GivenUp .enable (cmd :: var :: val :: rest) (.enableUnknown cmd)
  | enableLength (cmd var val : UInt8) (rest : Bytes) (h1 : cmd.toNat < 128) (h2 : cmd.toNat % 8 ≠ 2) :
      GivenUp .enable (cmd :: var :: val :: rest) (.enableLength cmd)

/-- A status request that is cut off. -/
inductive CutOff : Bytes → Prop
  | binary (c : UInt8) (rest : Bytes) (hc : c = 0x7a ∨ c = 0xfa) (h : rest.length < 2) : CutOff (c :: rest)
  | level (rest : Bytes) (h : rest.length < 2) : CutOff (0x73 :: 0x07 :: rest)

/-- The warnings for the data of an application: one for each command that is skipped,
one if the rest is given up, one if a status request is cut off; none for anything else
that is refused, which makes the packet invalid. -/
inductive Warns (a : AppHandler) : Bytes → List Warning → Prop
  | nil : Warns a [] []
  | command (d : Bytes) (s : SAL) (rest : Bytes) (ws : List Warning) (h : Command a d (some s) rest)
      (hr : Warns a rest ws) : Warns a d ws
  | skipped (d rest : Bytes) (w : Warning) (ws : List Warning) (h : Command a d none rest) (hw : Skipped d w)
      (hr : Warns a rest ws) : Warns a d (w :: ws)
  | givenUp (d : Bytes) (w : Warning) (h : GivenUp a d w) : Warns a d [w]
  | cutOff (d : Bytes) (ha : a = .statusRequest) (h : CutOff d) : Warns a d [.statusIncomplete]
  | refused (d : Bytes) (e : PyErr) (h : Refused a d e) (hc : ¬ (a = .statusRequest ∧ CutOff d)) : Warns a d []

/-- The data of an application are commands from the first byte to the last, and `l` is
what is to be reported for them, one for each. -/
inductive AllReported (a : AppHandler) : Bytes → List SAL → Prop
  | nil : AllReported a [] []
  | cons (d : Bytes) (s : SAL) (rest : Bytes) (l : List SAL) (h : Command a d (some s) rest)
      (hr : AllReported a rest l) : AllReported a d (s :: l)

/-- The message without its checksum, from the PCI (`true`) or to it (`false`), is a
point to multipoint message of the application with handler `a`, and `data` are the
commands in it. -/
inductive Multipoint (a : AppHandler) (data : Bytes) : Bool → Bytes → Prop
  | received (flags src app : UInt8) (ht : flags.toNat % 8 = 5) (hd : flags.toNat / 32 % 2 = 0)
      (ha : expectedHandler app.toNat = some a) : Multipoint a data true (flags :: src :: app :: 0x00 :: data)
  | sent (flags app : UInt8) (ht : flags.toNat % 8 = 5) (hd : flags.toNat / 32 % 2 = 0)
      (ha : expectedHandler app.toNat = some a) : Multipoint a data false (flags :: app :: 0x00 :: data)

/-- The message `m` is `b` and a checksum, if there are checksums. -/
def Carries (checksum : Bool) (m b : Bytes) : Prop :=
  checksum = false ∧ m = b ∨ checksum = true ∧ ∃ x, m = b ++ [x]

/-- What there is to say about the warnings for the text of a point to multipoint packet
with the commands `sals`. -/
def Explains (cs strict fp : Bool) (t : Bytes) (sals : List SAL) (warnings : List Warning) : Prop :=
  ∃ m b a data ws, HexPairs t m ∧ Carries cs m b ∧ Multipoint a data fp b ∧ a.decodeSals data = .ok sals ∧
    Warns a data ws ∧ ((cs = false ∨ SumsToZero m) ∧ warnings = ws ∨
      cs = true ∧ strict = false ∧ ¬ SumsToZero m ∧ warnings = .checksum m :: ws)

end CBus.Spec
