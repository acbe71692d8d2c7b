import Verif.Model.Decode
import Verif.Spec.Sal

/-! # The grammar of C-Bus messages

What is in a message, for every sequence of bytes, written down as tables of the forms
that exist and of the ways in which a message can be wrong. -/

namespace CBus.Spec

/-! ## The commands of the applications -/

/-- A command at the front of the data of an application, what is to be reported for it
(nothing if it is to be skipped), and the data behind it. -/
inductive Command : AppHandler → Bytes → Option SAL → Bytes → Prop
  | lightOn (ga : UInt8) (rest : Bytes) :
      Command .lighting (0x79 :: ga :: rest) (some (.lightOn ga.toNat)) rest
  | lightOff (ga : UInt8) (rest : Bytes) :
      Command .lighting (0x01 :: ga :: rest) (some (.lightOff ga.toNat)) rest
  | lightTerminate (ga : UInt8) (rest : Bytes) :
      Command .lighting (0x09 :: ga :: rest) (some (.lightTerminate ga.toNat)) rest
  | lightRamp (k : Nat) (d : Int) (cmd ga level : UInt8) (rest : Bytes) (hd : rampDurations[k]? = some d)
      (hc : cmd.toNat = rampCode k) :
      Command .lighting (cmd :: ga :: level :: rest) (some (.lightRamp ga.toNat d (.int level.toNat))) rest
  | temperature (cmd ga t : UInt8) (rest : Bytes) (h1 : cmd.toNat < 128) (h2 : cmd.toNat % 8 = 2) :
      Command .temperature (cmd :: ga :: t :: rest) (some (.temperature ga.toNat (.flt ((t.toNat : Rat) / 4)))) rest
  | enable (cmd var val : UInt8) (rest : Bytes) (h1 : cmd.toNat < 128) (h2 : cmd.toNat % 8 = 2) :
      Command .enable (cmd :: var :: val :: rest) (some (.enableSet var.toNat val.toNat)) rest
  | binaryRequest (c app ga : UInt8) (rest : Bytes) (hc : c = 0x7a ∨ c = 0xfa) (hg : ga.toNat % 32 = 0) :
      Command .statusRequest (c :: app :: ga :: rest) (some (.statusRequest false ga.toNat app.toNat)) rest
  | levelRequest (app ga : UInt8) (rest : Bytes) (hg : ga.toNat % 32 = 0) :
      Command .statusRequest (0x73 :: 0x07 :: app :: ga :: rest) (some (.statusRequest true ga.toNat app.toNat)) rest
  | date (yh yl m d w : UInt8) (rest : Bytes) (h : PyDate.Valid ⟨yh.toNat * 256 + yl.toNat, m.toNat, d.toNat⟩) :
      Command .clock (0x0e :: 0x02 :: yh :: yl :: m :: d :: w :: rest)
        (some (.clockUpdate (.date ⟨yh.toNat * 256 + yl.toNat, m.toNat, d.toNat⟩))) rest
  | time (h m s dst : UInt8) (rest : Bytes) (hv : h.toNat < 24 ∧ m.toNat < 60 ∧ s.toNat < 60) :
      Command .clock (0x0d :: 0x01 :: h :: m :: s :: dst :: rest)
        (some (.clockUpdate (.time ⟨h.toNat, m.toNat, s.toNat, 0⟩))) rest
  | request (rest : Bytes) : Command .clock (0x11 :: 0x03 :: rest) (some .clockRequest) rest
  /-- a request with another argument -/
  | otherRequest (a : UInt8) (rest : Bytes) (h : a ≠ 0x03) : Command .clock (0x11 :: a :: rest) none rest
  /-- a date or a time of the wrong length -/
  | otherLength (cmd var : UInt8) (rest : Bytes) (h : cmd.toNat / 8 = 1)
      (hv : var = 0x02 ∧ cmd ≠ 0x0e ∨ var = 0x01 ∧ cmd ≠ 0x0d) :
      Command .clock (cmd :: var :: rest) none ((var :: rest).drop (cmd.toNat % 8))
  /-- another variable, which is skipped twice (see C20) -/
  | otherVariable (cmd var : UInt8) (rest : Bytes) (h : cmd.toNat / 8 = 1) (h1 : var ≠ 0x01) (h2 : var ≠ 0x02) :
      Command .clock (cmd :: var :: rest) none ((var :: rest).drop (2 * (cmd.toNat % 8)))

/-- The data of an application are refused. -/
inductive Refused : AppHandler → Bytes → PyErr → Prop
  | shortBinaryRequest (c : UInt8) (rest : Bytes) (hc : c = 0x7a ∨ c = 0xfa) (h : rest.length < 2) :
      Refused .statusRequest (c :: rest) .indexError
  | shortLevelRequest (rest : Bytes) (h : rest.length < 2) : Refused .statusRequest (0x73 :: 0x07 :: rest) .indexError
  | binaryGroup (c app ga : UInt8) (rest : Bytes) (hc : c = 0x7a ∨ c = 0xfa) (hg : ga.toNat % 32 ≠ 0) :
      Refused .statusRequest (c :: app :: ga :: rest) .valueError
  | levelGroup (app ga : UInt8) (rest : Bytes) (hg : ga.toNat % 32 ≠ 0) :
      Refused .statusRequest (0x73 :: 0x07 :: app :: ga :: rest) .valueError
  | otherRequest (c : UInt8) (rest : Bytes) (h : c ∉ [0x7a, 0xfa, 0x73]) :
      Refused .statusRequest (c :: rest) .notImplemented
  | otherLevelRequest (rest : Bytes) (h : rest.head? ≠ some 0x07) :
      Refused .statusRequest (0x73 :: rest) .notImplemented
  | noVariable (cmd : UInt8) (h : cmd.toNat / 8 = 1 ∨ cmd = 0x11) : Refused .clock [cmd] .indexError
  | shortDate (rest : Bytes) (h : rest.length < 5) : Refused .clock (0x0e :: 0x02 :: rest) .structError
  | shortTime (rest : Bytes) (h : rest.length < 4) : Refused .clock (0x0d :: 0x01 :: rest) .structError
  | date (yh yl m d w : UInt8) (rest : Bytes) (h : ¬ PyDate.Valid ⟨yh.toNat * 256 + yl.toNat, m.toNat, d.toNat⟩) :
      Refused .clock (0x0e :: 0x02 :: yh :: yl :: m :: d :: w :: rest) .valueError
  | time (h m s dst : UInt8) (rest : Bytes) (hv : ¬ (h.toNat < 24 ∧ m.toNat < 60 ∧ s.toNat < 60)) :
      Refused .clock (0x0d :: 0x01 :: h :: m :: s :: dst :: rest) .valueError

/-- What the data of an application are read as: its commands one after the other, as far
as there are any; the remaining data are ignored unless they are refused. -/
inductive Reads (a : AppHandler) : Bytes → Py (List SAL) → Prop
  | command (d : Bytes) (s : Option SAL) (rest : Bytes) (r : Py (List SAL)) (h : Command a d s rest)
      (hr : Reads a rest r) : Reads a d (r.map (s.toList ++ ·))
  | refused (d : Bytes) (e : PyErr) (h : Refused a d e) : Reads a d (.error e)
  | stop (d : Bytes) (h1 : ∀ s rest, ¬ Command a d s rest) (h2 : ∀ e, ¬ Refused a d e) : Reads a d (.ok [])

/-! ## CALs -/

/-- The four states in a byte, the lowest first: bits `00` for a missing group, `01` on,
`10` off, `11` error. -/
def statesOf (b : UInt8) : List GroupState :=
  [0, 1, 2, 3].map fun k => [GroupState.missing, .on, .off, .error].getD (b.toNat / 4 ^ k % 4) .missing

/-- The two bytes of a level: a code word, lower byte first, or anything else if the
level is missing. -/
def LevelOf (b0 b1 : UInt8) (l : Option Int) : Prop :=
  (∃ v < 256, b0.toNat + 256 * b1.toNat = manchesterWord v ∧ l = some (v : Int)) ∨
  (∀ v < 256, b0.toNat + 256 * b1.toNat ≠ manchesterWord v) ∧ l = none

/-- The levels in a sequence of pairs of bytes. -/
inductive LevelsOf : Bytes → List (Option Int) → Prop
  | nil : LevelsOf [] []
  | cons (b0 b1 : UInt8) (rest : Bytes) (l : Option Int) (ls : List (Option Int)) (h : LevelOf b0 b1 l)
      (hr : LevelsOf rest ls) : LevelsOf (b0 :: b1 :: rest) (l :: ls)

/-- A CAL at the front of the data and the number of bytes it takes. -/
inductive CalAt : Bytes → CAL → Nat → Prop
  | identify (a : UInt8) (rest : Bytes) (h : a.toNat ≤ 0x11) : CalAt (0x21 :: a :: rest) (.identify a.toNat) 2
  | recall (p c : UInt8) (rest : Bytes) : CalAt (0x1a :: p :: c :: rest) (.recall p.toNat c.toNat) 3
  | reply (n p : UInt8) (data rest : Bytes) (h : n.toNat = 0x80 + (data.length + 1)) (hl : data.length + 1 < 32) :
      CalAt (n :: p :: (data ++ rest)) (.reply p.toNat data) (data.length + 2)
  | binary (n coding app blk : UInt8) (data rest : Bytes) (h : n.toNat = 0xe0 + (data.length + 3))
      (hc : coding.toNat % 8 = 0) :
      CalAt (n :: coding :: app :: blk :: (data ++ rest))
        (.extended (coding.toNat / 64 % 2 == 1) app.toNat blk.toNat (.binary (data.flatMap statesOf))) (data.length + 4)
  | level (n coding app blk : UInt8) (data rest : Bytes) (ls : List (Option Int))
      (h : n.toNat = 0xe0 + (data.length + 3)) (hc : coding.toNat % 8 = 7) (hl : LevelsOf data ls) :
      CalAt (n :: coding :: app :: blk :: (data ++ rest))
        (.extended (coding.toNat / 64 % 2 == 1) app.toNat blk.toNat (.level ls)) (data.length + 4)

/-- What is wrong with the data at the front of which a CAL is expected. -/
inductive CalRefused : Bytes → PyErr → Prop
  | empty : CalRefused [] .indexError
  /-- a reply or an extended status that is longer than the data -/
  | short (n : UInt8) (rest : Bytes) (h : n.toNat / 32 = 4 ∨ n.toNat / 32 = 7) (hl : rest.length < n.toNat % 32) :
      CalRefused (n :: rest) .valueError
  | emptyReply (rest : Bytes) : CalRefused (0x80 :: rest) .indexError
  | standard (n : UInt8) (rest : Bytes) (h : n.toNat / 32 = 6) : CalRefused (n :: rest) .notImplemented
  | noHeader (n : UInt8) (rest : Bytes) (h : n.toNat / 32 = 7) (hn : n.toNat % 32 < 3)
      (hl : n.toNat % 32 ≤ rest.length) : CalRefused (n :: rest) .indexError
  | coding (n coding : UInt8) (rest : Bytes) (h : n.toNat / 32 = 7) (hn : 3 ≤ n.toNat % 32)
      (hl : n.toNat % 32 ≤ rest.length + 1) (hc : coding.toNat % 8 ≠ 0 ∧ coding.toNat % 8 ≠ 7) :
      CalRefused (n :: coding :: rest) .notImplemented
  | oddLevels (n coding : UInt8) (rest : Bytes) (h : n.toNat / 32 = 7) (hn : 3 ≤ n.toNat % 32)
      (hl : n.toNat % 32 ≤ rest.length + 1) (hc : coding.toNat % 8 = 7) (ho : n.toNat % 2 = 0) :
      CalRefused (n :: coding :: rest) .valueError
  | shortIdentify : CalRefused [0x21] .indexError
  | unknownAttribute (a : UInt8) (rest : Bytes) (h : 0x11 < a.toNat) : CalRefused (0x21 :: a :: rest) .valueError
  | shortRecall (rest : Bytes) (h : rest.length < 2) : CalRefused (0x1a :: rest) .indexError
  | unknown (n : UInt8) (rest : Bytes) (h : n.toNat / 32 ∉ [4, 6, 7]) (h1 : n ≠ 0x21) (h2 : n ≠ 0x1a) :
      CalRefused (n :: rest) .keyError

/-- CALs one after the other until the end of the data. -/
inductive CalsAt : Bytes → Py (List CAL) → Prop
  | nil : CalsAt [] (.ok [])
  | cons (d : Bytes) (c : CAL) (n : Nat) (r : Py (List CAL)) (h : CalAt d c n) (hr : CalsAt (d.drop n) r) :
      CalsAt d (r.map (c :: ·))
  | refused (d : Bytes) (e : PyErr) (hd : d ≠ []) (h : CalRefused d e) : CalsAt d (.error e)

/-! ## Packets -/

/-- Point to multipoint: application, no routing, the commands. There is no packet
with commands of another application than the one of the packet, which is why only the
first of the lighting applications can be used (see C31). -/
inductive PmAt (checksum : Bool) (prio : Prio) : Bytes → Py PM → Prop
  | empty : PmAt checksum prio [] (.error .indexError)
  | application (a : UInt8) (rest : Bytes) (h : expectedHandler a.toNat = none) :
      PmAt checksum prio (a :: rest) (.error .valueError)
  | short (a : UInt8) (h : AppHandler) (hh : expectedHandler a.toNat = some h) :
      PmAt checksum prio [a] (.error .indexError)
  | routed (a r : UInt8) (rest : Bytes) (h : AppHandler) (hh : expectedHandler a.toNat = some h) (hr : r ≠ 0) :
      PmAt checksum prio (a :: r :: rest) (.error .valueError)
  | refused (a : UInt8) (rest : Bytes) (h : AppHandler) (hh : expectedHandler a.toNat = some h) (e : PyErr)
      (hr : Reads h rest (.error e)) : PmAt checksum prio (a :: 0 :: rest) (.error e)
  | other (a : UInt8) (rest : Bytes) (h : AppHandler) (hh : expectedHandler a.toNat = some h) (sals : List SAL)
      (hr : Reads h rest (.ok sals)) (ho : ∃ s ∈ sals, s.application ≠ a.toNat) :
      PmAt checksum prio (a :: 0 :: rest) (.error .valueError)
  | packet (a : UInt8) (rest : Bytes) (h : AppHandler) (hh : expectedHandler a.toNat = some h) (sals : List SAL)
      (hr : Reads h rest (.ok sals)) (hs : ∀ s ∈ sals, s.application = a.toNat) :
      PmAt checksum prio (a :: 0 :: rest)
        (.ok { checksum := checksum, prio := prio, app := some a.toNat, sals := sals, conf := none, src := none })

/-- Point to point: unit and no routing, or bridge, route, hops and unit; then CALs. The
route is nine times one more than the number of hops. -/
inductive PpAt (checksum : Bool) (prio : Prio) : Bytes → Py PP → Prop
  | short (d : Bytes) (h : d.length < 2) : PpAt checksum prio d (.error .indexError)
  | direct (u : UInt8) (rest : Bytes) (r : Py (List CAL)) (hr : CalsAt rest r) :
      PpAt checksum prio (u :: 0 :: rest) (r.map fun cals =>
        { checksum := checksum, prio := prio, unit := u.toNat, hops := [], bridged := false, cals := cals, conf := none, src := none })
  | route (b r : UInt8) (rest : Bytes) (h0 : r ≠ 0) (h : ∀ n ≤ 5, r.toNat ≠ 9 * (n + 1)) :
      PpAt checksum prio (b :: r :: rest) (.error .keyError)
  | shortRoute (b r : UInt8) (rest : Bytes) (n : Nat) (hn : n ≤ 5) (h : r.toNat = 9 * (n + 1)) (hl : rest.length ≤ n) :
      PpAt checksum prio (b :: r :: rest) (.error .indexError)
  | refused (b r : UInt8) (hops : Bytes) (u : UInt8) (rest : Bytes) (hn : hops.length ≤ 5)
      (h : r.toNat = 9 * (hops.length + 1)) (e : PyErr) (hr : CalsAt rest (.error e)) :
      PpAt checksum prio (b :: r :: (hops ++ u :: rest)) (.error e)
  | noBridge (r : UInt8) (hops : Bytes) (u : UInt8) (rest : Bytes) (hn : hops.length ≤ 5)
      (h : r.toNat = 9 * (hops.length + 1)) (cals : List CAL) (hr : CalsAt rest (.ok cals)) :
      PpAt checksum prio (0 :: r :: (hops ++ u :: rest)) (.error .valueError)
  | bridged (b r : UInt8) (hops : Bytes) (u : UInt8) (rest : Bytes) (hb : b ≠ 0) (hn : hops.length ≤ 5)
      (h : r.toNat = 9 * (hops.length + 1)) (cals : List CAL) (hr : CalsAt rest (.ok cals)) :
      PpAt checksum prio (b :: r :: (hops ++ u :: rest)) (.ok
        { checksum := checksum, prio := prio, unit := u.toNat, hops := hops.map fun x => (x.toNat : Int), bridged := true,
          cals := cals, conf := none, src := none })

/-- Device management: parameter, zero, value. -/
inductive DmAt (checksum : Bool) (prio : Prio) : Bytes → Py DM → Prop
  | packet (p v : UInt8) : DmAt checksum prio [p, 0, v] (.ok
      { checksum := checksum, prio := prio, parameter := p.toNat, value := v.toNat, conf := none, src := none })
  | short (d : Bytes) (h : d.length < 2) : DmAt checksum prio d (.error .indexError)
  | zero (p z : UInt8) (rest : Bytes) (h : z ≠ 0) : DmAt checksum prio (p :: z :: rest) (.error .valueError)
  | noValue (p : UInt8) : DmAt checksum prio [p, 0] (.error .indexError)
  | long (p v x : UInt8) (rest : Bytes) : DmAt checksum prio (p :: 0 :: v :: x :: rest) (.error .valueError)

/-- The priority in the highest two bits of the flags. -/
def prioOf (flags : UInt8) : Prio := [Prio.class4, .class3, .class2, .class1].getD (flags.toNat / 64) .class4

/-- What follows the header, by the flags: with bit 5 device management, without it a CAL
if the command was not preceded by a backslash (`direct`), else by the lowest three bits.
The second component is the number of bytes that are taken too much (see C33). -/
inductive PayloadAt (checksum direct : Bool) (flags : UInt8) : Bytes → Py (Packet × Nat) → Prop
  | dm (d : Bytes) (r : Py DM) (hf : flags.toNat / 32 % 2 = 1) (hr : DmAt checksum (prioOf flags) d r) :
      PayloadAt checksum direct flags d (r.map fun p => (.dm p, 0))
  | cal (d : Bytes) (c : CAL) (n : Nat) (hf : flags.toNat / 32 % 2 = 0) (hd : direct = true) (hc : CalAt d c n) :
      PayloadAt checksum direct flags d (.ok (.cal c, n))
  | calRefused (d : Bytes) (e : PyErr) (hf : flags.toNat / 32 % 2 = 0) (hd : direct = true) (hc : CalRefused d e) :
      PayloadAt checksum direct flags d (.error e)
  | pp (d : Bytes) (r : Py PP) (hf : flags.toNat / 32 % 2 = 0) (hd : direct = false) (ht : flags.toNat % 8 = 6)
      (hr : PpAt checksum (prioOf flags) d r) : PayloadAt checksum direct flags d (r.map fun p => (.pp p, 0))
  | pm (d : Bytes) (r : Py PM) (hf : flags.toNat / 32 % 2 = 0) (hd : direct = false) (ht : flags.toNat % 8 = 5)
      (hr : PmAt checksum (prioOf flags) d r) : PayloadAt checksum direct flags d (r.map fun p => (.pm p, 0))
  | other (d : Bytes) (hf : flags.toNat / 32 % 2 = 0) (hd : direct = false) (ht : flags.toNat % 8 = 3 ∨ flags.toNat % 8 = 0) :
      PayloadAt checksum direct flags d (.error .notImplemented)

/-- The packet with the address of its source and the confirmation it asks for. -/
def addressed (src : Option Int) (conf : Option UInt8) : Packet → Packet
  | .pm p => .pm { p with src := src, conf := conf }
  | .pp p => .pp { p with src := src, conf := conf }
  | .dm p => .dm { p with src := src, conf := conf }
  | p => p

/-- A message without its checksum, from the PCI: flags, source and payload. Address 0
counts as none (see C27). The result is a packet and the number of bytes taken too much. -/
inductive EventAt (checksum : Bool) : Bytes → Packet × Nat → Prop
  | type (flags : UInt8) (rest : Bytes) (h : flags.toNat % 8 ∉ [0, 3, 5, 6]) :
      EventAt checksum (flags :: rest) (.invalid (flags :: rest) .valueError, 0)
  | short (flags : UInt8) (h : flags.toNat % 8 ∈ [0, 3, 5, 6]) :
      EventAt checksum [flags] (.invalid [] .indexError, 0)
  | refused (flags src : UInt8) (d : Bytes) (h : flags.toNat % 8 ∈ [0, 3, 5, 6]) (e : PyErr)
      (hp : PayloadAt checksum false flags d (.error e)) : EventAt checksum (flags :: src :: d) (.invalid d e, 0)
  | packet (flags src : UInt8) (d : Bytes) (h : flags.toNat % 8 ∈ [0, 3, 5, 6]) (p : Packet) (n : Nat)
      (hp : PayloadAt checksum false flags d (.ok (p, n))) :
      EventAt checksum (flags :: src :: d) (addressed (if src = 0 then none else some src.toNat) none p, n)

/-- A message without its checksum, to the PCI: flags and payload. -/
inductive CommandAt (checksum direct : Bool) (conf : Option UInt8) : Bytes → Packet × Nat → Prop
  | type (flags : UInt8) (rest : Bytes) (h : flags.toNat % 8 ∉ [0, 3, 5, 6]) :
      CommandAt checksum direct conf (flags :: rest) (.invalid (flags :: rest) .valueError, 0)
  | refused (flags : UInt8) (d : Bytes) (h : flags.toNat % 8 ∈ [0, 3, 5, 6]) (e : PyErr)
      (hp : PayloadAt checksum direct flags d (.error e)) : CommandAt checksum direct conf (flags :: d) (.invalid d e, 0)
  | packet (flags : UInt8) (d : Bytes) (h : flags.toNat % 8 ∈ [0, 3, 5, 6]) (p : Packet) (n : Nat)
      (hp : PayloadAt checksum direct flags d (.ok (p, n))) :
      CommandAt checksum direct conf (flags :: d) (addressed none conf p, n)

/-- A message with its checksum. One that is wrong is tolerated when not strict. -/
inductive MessageAt (checksum strict : Bool) (body : Bytes → Packet × Nat → Prop) : Bytes → Packet × Nat → Prop
  | unchecked (m : Bytes) (r : Packet × Nat) (hc : checksum = false) (hb : body m r) : MessageAt checksum strict body m r
  | wrong (m : Bytes) (hc : checksum = true) (hs : strict = true) (h : ¬ SumsToZero m) :
      MessageAt checksum strict body m (.invalid m .valueError, 0)
  | checked (m : Bytes) (x : UInt8) (r : Packet × Nat) (hc : checksum = true) (h : strict = true → SumsToZero (m ++ [x]))
      (hb : body m r) : MessageAt checksum strict body (m ++ [x]) r

/-- The value of a hexadecimal digit. -/
def digitOf (c : UInt8) : Nat := if c.toNat < 65 then c.toNat - 48 else c.toNat - 55

/-- Pairs of hexadecimal digits and the bytes they stand for. -/
inductive HexPairs : Bytes → Bytes → Prop
  | nil : HexPairs [] []
  | cons (a b x : UInt8) (t m : Bytes) (ha : HexDigit a) (hb : HexDigit b) (hx : x.toNat = 16 * digitOf a + digitOf b)
      (h : HexPairs t m) : HexPairs (a :: b :: t) (x :: m)

/-- The text of a message. Text with other characters than digits is kept as it is. -/
inductive TextAt (message : Bytes → Packet × Nat → Prop) : Bytes → Packet × Nat → Prop
  | text (t : Bytes) (h : ∃ c ∈ t, ¬ HexDigit c) : TextAt message t (.invalid t .valueError, 0)
  | digits (t m : Bytes) (r : Packet × Nat) (h : HexPairs t m) (hm : message m r) : TextAt message t r

/-- A line from the PCI without its end. -/
def LineFromPci (checksum strict : Bool) (l : Bytes) (r : Packet × Nat) : Prop :=
  TextAt (MessageAt checksum strict (EventAt checksum)) l r

/-- The text of a command to the PCI and the character behind it, which asks for a
confirmation. -/
inductive ConfAt (checksum strict direct : Bool) : Bytes → Packet × Nat → Prop
  | plain (t : Bytes) (l : UInt8) (r : Packet × Nat) (hl : t.getLast? = some l) (h : HexDigit l)
      (hm : TextAt (MessageAt checksum strict (CommandAt checksum direct none)) t r) : ConfAt checksum strict direct t r
  | code (t : Bytes) (c : UInt8) (r : Packet × Nat) (h : ¬ HexDigit c) (hc : strict = true → 0x67 ≤ c.toNat ∧ c.toNat ≤ 0x7a)
      (hm : TextAt (MessageAt checksum strict (CommandAt checksum direct (some c))) t r) :
      ConfAt checksum strict direct (t ++ [c]) r
  | badCode (t : Bytes) (c : UInt8) (h : ¬ HexDigit c) (hs : strict = true) (hc : ¬ (0x67 ≤ c.toNat ∧ c.toNat ≤ 0x7a)) :
      ConfAt checksum strict direct (t ++ [c]) (.invalid (t ++ [c]) .valueError, 0)

/-- A line to the PCI without its end: with a backslash to the network, with `@` or
without either to the PCI itself, with `@` never with a checksum. -/
inductive LineToPci (checksum strict : Bool) : Bytes → Packet × Nat → Prop
  | network (t : Bytes) (r : Packet × Nat) (h : ConfAt checksum strict false t r) : LineToPci checksum strict (0x5c :: t) r
  | basic (t : Bytes) (r : Packet × Nat) (h : ConfAt false strict true t r) : LineToPci checksum strict (0x40 :: t) r
  | direct (t : Bytes) (r : Packet × Nat) (h1 : t.head? ≠ some 0x5c) (h2 : t.head? ≠ some 0x40)
      (h : ConfAt checksum strict true t r) : LineToPci checksum strict t r

/-- The character stands for a confirmation: `g` to `z`. -/
def Code (c : UInt8) : Prop := 0x67 ≤ c.toNat ∧ c.toNat ≤ 0x7a

/-- What the characters received from the PCI begin with, and how many of them it takes. -/
inductive FromPci (checksum strict : Bool) : Bytes → Option Packet × Nat → Prop
  | powerOn (rest : Bytes) : FromPci checksum strict (0x2b :: rest) (some .powerOn, 1)
  | error (rest : Bytes) : FromPci checksum strict (0x21 :: rest) (some .pciError, 1)
  | confirmed (c : UInt8) (rest : Bytes) (hc : Code c) :
      FromPci checksum strict (c :: 0x2e :: rest) (some (.confirmation [c] true), 2)
  | refused (c s : UInt8) (rest : Bytes) (hc : Code c) (hs : s ≠ 0x2e) :
      FromPci checksum strict (c :: s :: rest) (some (.confirmation [c] false), 2)
  | waiting (d : Bytes) (h1 : d.head? ≠ some 0x2b) (h2 : d.head? ≠ some 0x21)
      (h3 : ∀ c s rest, d = c :: s :: rest → ¬ Code c) (h : ¬ [0x0d, 0x0a] <:+: d) : FromPci checksum strict d (none, 0)
  | empty (rest : Bytes) : FromPci checksum strict (0x0d :: 0x0a :: rest) (none, 2)
  | line (l rest : Bytes) (r : Packet × Nat) (hl : ¬ [0x0d, 0x0a] <:+: l)
      (hh : ∀ c, l.head? = some c → c ≠ 0x2b ∧ c ≠ 0x21 ∧ ¬ Code c) (h : LineFromPci checksum strict l r) :
      FromPci checksum strict (l ++ 0x0d :: 0x0a :: rest) (some r.1, l.length + 2 + r.2)

/-- What the characters received by the PCI begin with, and how many of them it takes. -/
inductive ToPci (checksum strict : Bool) : Bytes → Option Packet × Nat → Prop
  | reset (rest : Bytes) : ToPci checksum strict (0x7e :: rest) (some .reset, 1)
  | null (rest : Bytes) : ToPci checksum strict (0x6e :: 0x75 :: 0x6c :: 0x6c :: rest) (none, 4)
  | connect (rest : Bytes) : ToPci checksum strict (0x7c :: 0x0d :: rest) (some .smartConnect, 2)
  | connectTwice (rest : Bytes) : ToPci checksum strict (0x7c :: 0x7c :: 0x0d :: rest) (some .smartConnect, 3)
  | waiting (d : Bytes) (h1 : d.head? ≠ some 0x7e) (h2 : ¬ [0x6e, 0x75, 0x6c, 0x6c] <+: d) (h : (0x0d : UInt8) ∉ d) :
      ToPci checksum strict d (none, 0)
  | cancelled (t u rest : Bytes) (h1 : t.head? ≠ some 0x7e) (h2 : ¬ [0x6e, 0x75, 0x6c, 0x6c] <+: t)
      (h3 : (0x3f : UInt8) ∉ t) (h4 : (0x0d : UInt8) ∉ t) (h5 : (0x0d : UInt8) ∉ u) :
      ToPci checksum strict (t ++ 0x3f :: (u ++ 0x0d :: rest)) (none, t.length + 1)
  | empty (rest : Bytes) : ToPci checksum strict (0x0d :: rest) (none, 1)
  | line (l rest : Bytes) (r : Packet × Nat) (h1 : l.head? ≠ some 0x7e) (h2 : ¬ [0x6e, 0x75, 0x6c, 0x6c] <+: l)
      (h3 : (0x3f : UInt8) ∉ l) (h4 : (0x0d : UInt8) ∉ l) (h5 : l ≠ [0x7c]) (h6 : l ≠ [0x7c, 0x7c])
      (h : LineToPci checksum strict l r) :
      ToPci checksum strict (l ++ 0x0d :: rest) (some r.1, l.length + 1 + r.2)

end CBus.Spec
