import Verif.Model.Client
import Verif.Spec.Grammar
import Verif.Spec.Calendar
import Verif.Spec.Client

/-! # What a client does with all that it receives

From the characters, in whatever pieces they come, to the calls of the handlers, the
characters that are sent and the exception that ends the connection, if any. -/

namespace CBus.Spec

/-! ## Text that raises -/

/-- The text of a message is not readable: digits only, but an odd number of them or
none, or too few for a message with a checksum. -/
inductive TextFault (checksum strict : Bool) : Bytes → PyErr → Prop
  | odd (t : Bytes) (h : ∀ c ∈ t, HexDigit c) (hl : t.length % 2 = 1) : TextFault checksum strict t .binasciiError
  | empty : TextFault checksum strict [] .indexError
  /-- a checksum without a message -/
  | bare (a b : UInt8) (ha : HexDigit a) (hb : HexDigit b) (hc : checksum = true)
      (hs : strict = true → a = 0x30 ∧ b = 0x30) : TextFault checksum strict [a, b] .indexError

/-- What the characters received from the PCI begin with raises. -/
inductive FaultFromPci (checksum strict : Bool) : Bytes → PyErr → Prop
  | line (l rest : Bytes) (e : PyErr) (hl : l ≠ []) (h : TextFault checksum strict l e) :
      FaultFromPci checksum strict (l ++ 0x0d :: 0x0a :: rest) e

/-- The text of a command to the PCI, with the character behind it, raises. -/
inductive ConfFault (checksum strict : Bool) : Bytes → PyErr → Prop
  | plain (t : Bytes) (e : PyErr) (h : TextFault checksum strict t e) : ConfFault checksum strict t e
  | code (t : Bytes) (c : UInt8) (e : PyErr) (h : ¬ HexDigit c) (hc : strict = true → 0x67 ≤ c.toNat ∧ c.toNat ≤ 0x7a)
      (ht : TextFault checksum strict t e) : ConfFault checksum strict (t ++ [c]) e

/-- A line to the PCI raises. -/
inductive LineFault (checksum strict : Bool) : Bytes → PyErr → Prop
  | network (t : Bytes) (e : PyErr) (h : ConfFault checksum strict t e) : LineFault checksum strict (0x5c :: t) e
  | basic (t : Bytes) (e : PyErr) (h : ConfFault false strict t e) : LineFault checksum strict (0x40 :: t) e
  | direct (t : Bytes) (e : PyErr) (hn : t ≠ []) (h1 : t.head? ≠ some 0x5c) (h2 : t.head? ≠ some 0x40)
      (h : ConfFault checksum strict t e) : LineFault checksum strict t e

/-- What the characters received by the PCI begin with raises. -/
inductive FaultToPci (checksum strict : Bool) : Bytes → PyErr → Prop
  | line (l rest : Bytes) (e : PyErr) (h1 : l.head? ≠ some 0x7e) (h2 : ¬ [0x6e, 0x75, 0x6c, 0x6c] <+: l)
      (h3 : (0x3f : UInt8) ∉ l) (h4 : (0x0d : UInt8) ∉ l) (h5 : l ≠ [0x7c]) (h6 : l ≠ [0x7c, 0x7c])
      (h : LineFault checksum strict l e) : FaultToPci checksum strict (l ++ 0x0d :: rest) e

/-! ## Messages and handlers -/

/-- The handler call a SAL should cause. -/
def salEvent (src : Option Int) : SAL → Option Event
  | .lightOn ga => some (.lightingOn src ga)
  | .lightOff ga => some (.lightingOff src ga)
  | .lightTerminate ga => some (.lightingTerminate src ga)
  | .lightRamp ga d l => some (.lightingRamp src ga d l)
  | .clockUpdate v => some (.clockUpdate src v)
  | .clockRequest => some (.clockRequest src)
  | .temperature _ _ => none
  | .enableSet _ _ => none
  | .statusRequest _ _ _ => none

/-- The handler calls a packet should cause. -/
def packetEvents : Packet → List Event
  | .pm p => p.sals.filterMap (salEvent p.src)
  | .confirmation c ok => [.confirmation c ok]
  | .pciError => [.cannotAcceptData]
  | _ => []

/-- How bytes are spelled: in hexadecimal digits, with a checksum behind them or not. -/
def Spelled (checksum : Bool) (body digits : Bytes) : Prop :=
  match checksum with
  | false => HexPairs digits body
  | true => ∃ x, HexPairs digits (body ++ [x]) ∧ SumsToZero (body ++ [x])

/-- The line that tells the network the time: a command with a checksum and a
confirmation code, the date and the time in it. -/
def ClockLine (t : PyDateTime) (code : UInt8) (line : Bytes) : Prop :=
  ∃ w digits, IsWeekday t.date w ∧ Spelled true ([0x05, 0xdf, 0x00] ++ clockBytes t w) digits ∧
    line = 0x5c :: digits ++ [code, 0x0d]

/-- What a client is and has: whether it answers requests for the time, what it makes of
the other events, and what the clock shows when it is read for the `n`th time. -/
structure Manner (π : Type) where
  clock : Bool
  says : Event → List π
  now : Nat → PyDateTime

/-- How often a client has used a confirmation code and read the clock. -/
structure Count where
  codes : Nat
  reads : Nat
  deriving DecidableEq, Repr

/-- The confirmation codes in the order of their use: `h` to `z`, then `g`. -/
def codeAt (k : Nat) : UInt8 := if k % 20 = 19 then 0x67 else UInt8.ofNat (0x68 + k % 20)

/-- Events one after the other: the call of the handler and what the handler does. -/
inductive Handles {π : Type} (m : Manner π) : List Event → Count → List (Eff π) → Count → Prop
  | nil (k : Count) : Handles m [] k [] k
  | clock (src : Option Int) (es : List Event) (k k' : Count) (line : Bytes) (o : List (Eff π)) (hc : m.clock = true)
      (hl : ClockLine (m.now k.reads) (codeAt k.codes) line) (h : Handles m es ⟨k.codes + 1, k.reads + 1⟩ o k') :
      Handles m (.clockRequest src :: es) k (.event (.clockRequest src) :: .write line :: o) k'
  | noClock (src : Option Int) (es : List Event) (k k' : Count) (o : List (Eff π)) (hc : m.clock = false)
      (h : Handles m es k o k') : Handles m (.clockRequest src :: es) k (.event (.clockRequest src) :: o) k'
  | other (e : Event) (es : List Event) (k k' : Count) (o : List (Eff π)) (he : ∀ src, e ≠ .clockRequest src)
      (h : Handles m es k o k') : Handles m (e :: es) k (.event e :: (m.says e).map .ext ++ o) k'

/-- What is done with the characters in the buffer: what happens, what is left of them
and the exception, if any, that leaves the rest where it is. -/
inductive Hears {π : Type} (m : Manner π) : Bytes → Count → List (Eff π) → Bytes → Count → Py Unit → Prop
  | waits (d : Bytes) (k : Count) (h : FromPci true true d (none, 0)) : Hears m d k [] d k (.ok ())
  | fault (d : Bytes) (k : Count) (e : PyErr) (h : FaultFromPci true true d e) : Hears m d k [] d k (.error e)
  | skips (d : Bytes) (n : Nat) (k k' : Count) (o : List (Eff π)) (d' : Bytes) (r : Py Unit)
      (h : FromPci true true d (none, n)) (hn : n ≠ 0) (hr : Hears m (d.drop n) k o d' k' r) : Hears m d k o d' k' r
  | message (d : Bytes) (p : Packet) (n : Nat) (k k1 k2 : Count) (o1 o2 : List (Eff π)) (d' : Bytes) (r : Py Unit)
      (h : FromPci true true d (some p, n)) (ho : Handles m (packetEvents p) k o1 k1)
      (hr : Hears m (d.drop n) k1 o2 d' k2 r) : Hears m d k (o1 ++ o2) d' k2 r

/-- The whole conversation: the pieces that arrive one after the other, until one of them
ends it. No more than 256 characters are kept. -/
inductive Converses {π : Type} (m : Manner π) :
    Bytes → Count → List Bytes → List (Eff π) → Bytes → Count → Py Unit → Prop
  | silence (b : Bytes) (k : Count) : Converses m b k [] [] b k (.ok ())
  | huge (b : Bytes) (k : Count) (d : Bytes) (ds : List Bytes) (h : 256 < d.length) :
      Converses m b k (d :: ds) [] b k (.error .valueError)
  | overflow (b : Bytes) (k : Count) (d : Bytes) (ds : List Bytes) (h1 : d.length ≤ 256) (h2 : 256 < b.length + d.length) :
      Converses m b k (d :: ds) [] [] k (.error .valueError)
  | ends (b : Bytes) (k k' : Count) (d : Bytes) (ds : List Bytes) (o : List (Eff π)) (b' : Bytes) (e : PyErr)
      (hl : b.length + d.length ≤ 256) (h : Hears m (b ++ d) k o b' k' (.error e)) :
      Converses m b k (d :: ds) o b' k' (.error e)
  | goesOn (b : Bytes) (k k1 k2 : Count) (d : Bytes) (ds : List Bytes) (o1 o2 : List (Eff π)) (b1 b2 : Bytes) (r : Py Unit)
      (hl : b.length + d.length ≤ 256) (h : Hears m (b ++ d) k o1 b1 k1 (.ok ())) (hr : Converses m b1 k1 ds o2 b2 k2 r) :
      Converses m b k (d :: ds) (o1 ++ o2) b2 k2 r

end CBus.Spec
