import Verif.Model.Server
import Verif.Spec.Session
import Verif.Spec.Writing

/-! # What the simulated PCI does with all that it receives -/

namespace CBus.Spec

/-- A line with an event on the lighting application: source, command and group. -/
def ReportLine (checksum : Bool) (src : Int) (cmd : UInt8) (ga : Int) (line : Bytes) : Prop :=
  ∃ digits, Spelled checksum [0x05, byteOf src, 0x38, 0x00, cmd, byteOf ga] digits ∧ line = digits ++ [0x0d, 0x0a]

/-- Units 1 to 10 and 253 are present. -/
def present (i : Nat) : Bool := (1 ≤ i && i ≤ 10) || i == 253

/-- The states of four units, the lowest first, two bits each: 1 for a unit that is present. -/
def presenceByte (j : Nat) : UInt8 :=
  UInt8.ofNat (([0, 1, 2, 3].map fun k => if present (4 * j + k) then 4 ^ k else 0).sum)

/-- One of the lines of the report which units are present: from the given unit on, as
many bytes as given. The length in the first byte is one too much (see C54). -/
def PresenceLine (start n : Nat) (line : Bytes) : Prop :=
  ∃ digits, Spelled true ([UInt8.ofNat (0xc0 + (n + 3)), 0xff, UInt8.ofNat start] ++
    (List.range' (start / 4) n).map presenceByte) digits ∧ line = digits ++ [0x0d, 0x0a]

/-- The event for a command that has no other effect. -/
def told : SAL → Option SEvent
  | .lightOn ga => some (.lightingOn ga)
  | .lightOff ga => some (.lightingOff ga)
  | .lightTerminate ga => some (.lightingTerminate ga)
  | .lightRamp ga d l => some (.lightingRamp ga d l)
  | .clockRequest => some .clockRequest
  | _ => none

/-- Commands that are not understood. -/
def NotUnderstood : SAL → Prop
  | .temperature _ _ => True
  | .enableSet _ _ => True
  | .statusRequest level _ app => level = true ∨ app ≠ 0xff
  | _ => False

/-- What is done for a command, and whether to go on with the next. After a clock update
two events with random groups and sources are queued. -/
inductive Obeys (rand : Nat → Int) : SAL → Server → List SEff → Server → Py Bool → Prop
  | told (x : SAL) (e : SEvent) (s : Server) (h : told x = some e) : Obeys rand x s [.event e] s (.ok true)
  | clock (v : ClockVal) (s : Server) (l1 l2 : Bytes)
      (h1 : ReportLine s.checksum (rand (s.rngPos + 1)) 0x79 (rand s.rngPos) l1)
      (h2 : ReportLine s.checksum (rand (s.rngPos + 3)) 0x01 (rand (s.rngPos + 2)) l2) :
      Obeys rand (.clockUpdate v) s [.event (.clockUpdate v), .queued l1, .queued l2]
        { s with rngPos := s.rngPos + 4, queue := s.queue ++ [l1, l2] } (.ok true)
  | presence (ga : Int) (s : Server) (l1 l2 l3 : Bytes) (hb : s.basic = true) (h1 : PresenceLine 0 22 l1)
      (h2 : PresenceLine 88 22 l2) (h3 : PresenceLine 176 20 l3) :
      Obeys rand (.statusRequest false ga 0xff) s
        (.event (.masterStatus ga) :: .write l1 :: s.queue.map .write ++ [.write l2, .write l3])
        { s with queue := [] } (.ok true)
  | smart (ga : Int) (s : Server) (hb : s.basic = false) :
      Obeys rand (.statusRequest false ga 0xff) s [.event (.masterStatus ga)] s (.error .notImplemented)
  | unknown (x : SAL) (s : Server) (h : NotUnderstood x) : Obeys rand x s [] s (.ok false)

/-- Commands one after the other, until one is not understood or raises. -/
inductive ObeysAll (rand : Nat → Int) : List SAL → Server → List SEff → Server → Py Bool → Prop
  | nil (s : Server) : ObeysAll rand [] s [] s (.ok true)
  | next (x : SAL) (l : List SAL) (s s1 s2 : Server) (o1 o2 : List SEff) (r : Py Bool)
      (h : Obeys rand x s o1 s1 (.ok true)) (hr : ObeysAll rand l s1 o2 s2 r) : ObeysAll rand (x :: l) s (o1 ++ o2) s2 r
  | stops (x : SAL) (l : List SAL) (s s1 : Server) (o : List SEff) (r : Py Bool) (h : Obeys rand x s o s1 r)
      (hr : r ≠ .ok true) : ObeysAll rand (x :: l) s o s1 r

/-- A command is confirmed if it asks for it; what is queued follows. -/
inductive Confirms : Option UInt8 → Server → List SEff → Server → Prop
  | silent (s : Server) : Confirms none s [] s
  | code (c : UInt8) (s : Server) : Confirms (some c) s (.write [c, 0x2e] :: s.queue.map .write) { s with queue := [] }

/-- What is done for a packet. -/
inductive Acts (rand : Nat → Int) : Packet → Server → List SEff → Server → Py Unit → Prop
  | reset (s : Server) : Acts rand .reset s [.event .reset]
      { s with basic := true, connect := false, checksum := false, monitor := false, idmon := false,
               app1 := 0xff, app2 := 0xff } (.ok ())
  | connect (s : Server) : Acts rand .smartConnect s [] { s with basic := false, connect := true } (.ok ())
  | commands (q : PM) (s s1 s2 : Server) (o1 o2 : List SEff) (h : ObeysAll rand q.sals s o1 s1 (.ok true))
      (hc : Confirms q.conf s1 o2 s2) : Acts rand (.pm q) s (o1 ++ o2) s2 (.ok ())
  | notUnderstood (q : PM) (s s1 : Server) (o : List SEff) (h : ObeysAll rand q.sals s o s1 (.ok false)) :
      Acts rand (.pm q) s o s1 (.ok ())
  | raises (q : PM) (s s1 : Server) (o : List SEff) (e : PyErr) (h : ObeysAll rand q.sals s o s1 (.error e)) :
      Acts rand (.pm q) s o s1 (.error e)
  /-- the options, each a bit of the value -/
  | options (q : DM) (s s1 : Server) (o : List SEff) (h : q.parameter = 0x30 ∨ q.parameter = 0x41)
      (hc : Confirms q.conf
        { s with connect := low q.value % 2 == 1, checksum := low q.value / 8 % 2 == 1,
                 basic := low q.value / 16 % 2 == 0, monitor := low q.value / 32 % 2 == 1,
                 idmon := low q.value / 64 % 2 == 1 } o s1) : Acts rand (.dm q) s o s1 (.ok ())
  /-- applications, and options at power up: confirmed, but without effect -/
  | ignored (q : DM) (s s1 : Server) (o : List SEff) (h : q.parameter ∈ [0x21, 0x22, 0x3e, 0x42])
      (hc : Confirms q.conf s o s1) : Acts rand (.dm q) s o s1 (.ok ())
  | parameter (q : DM) (s : Server) (h : q.parameter ∉ [0x21, 0x22, 0x30, 0x3e, 0x41, 0x42]) :
      Acts rand (.dm q) s [] s (.ok ())
  | other (p : Packet) (s : Server) (h : p ≠ .reset) (h1 : p ≠ .smartConnect) (h2 : ∀ q, p ≠ .pm q) (h3 : ∀ q, p ≠ .dm q) :
      Acts rand p s [] s (.ok ())

/-- What is done with the characters in the buffer. In basic mode everything that is
taken out of it is sent back first. -/
inductive Serves (rand : Nat → Int) : Bytes → Server → List SEff → Bytes → Server → Py Unit → Prop
  | waits (d : Bytes) (s : Server) (h : ToPci s.checksum true d (none, 0)) : Serves rand d s [] d s (.ok ())
  | fault (d : Bytes) (s : Server) (e : PyErr) (h : FaultToPci s.checksum true d e) : Serves rand d s [] d s (.error e)
  | skips (d : Bytes) (n : Nat) (s s' : Server) (o : List SEff) (d' : Bytes) (r : Py Unit)
      (h : ToPci s.checksum true d (none, n)) (hn : n ≠ 0) (hr : Serves rand (d.drop n) s o d' s' r) :
      Serves rand d s ((if s.basic then [.echo (d.take n)] else []) ++ o) d' s' r
  | message (d : Bytes) (p : Packet) (n : Nat) (s s1 s2 : Server) (o1 o2 : List SEff) (d' : Bytes) (r : Py Unit)
      (h : ToPci s.checksum true d (some p, n)) (ho : Acts rand p s o1 s1 (.ok ()))
      (hr : Serves rand (d.drop n) s1 o2 d' s2 r) :
      Serves rand d s ((if s.basic then [.echo (d.take n)] else []) ++ o1 ++ o2) d' s2 r
  | raises (d : Bytes) (p : Packet) (n : Nat) (s s1 : Server) (o : List SEff) (e : PyErr)
      (h : ToPci s.checksum true d (some p, n)) (ho : Acts rand p s o s1 (.error e)) :
      Serves rand d s ((if s.basic then [.echo (d.take n)] else []) ++ o) d s1 (.error e)

/-- The whole conversation. -/
inductive Hosts (rand : Nat → Int) : Bytes → Server → List Bytes → List SEff → Bytes → Server → Py Unit → Prop
  | silence (b : Bytes) (s : Server) : Hosts rand b s [] [] b s (.ok ())
  | huge (b : Bytes) (s : Server) (d : Bytes) (ds : List Bytes) (h : 256 < d.length) :
      Hosts rand b s (d :: ds) [] b s (.error .valueError)
  | overflow (b : Bytes) (s : Server) (d : Bytes) (ds : List Bytes) (h1 : d.length ≤ 256) (h2 : 256 < b.length + d.length) :
      Hosts rand b s (d :: ds) [] [] s (.error .valueError)
  | ends (b : Bytes) (s s' : Server) (d : Bytes) (ds : List Bytes) (o : List SEff) (b' : Bytes) (e : PyErr)
      (hl : b.length + d.length ≤ 256) (h : Serves rand (b ++ d) s o b' s' (.error e)) :
      Hosts rand b s (d :: ds) o b' s' (.error e)
  | goesOn (b : Bytes) (s s1 s2 : Server) (d : Bytes) (ds : List Bytes) (o1 o2 : List SEff) (b1 b2 : Bytes) (r : Py Unit)
      (hl : b.length + d.length ≤ 256) (h : Serves rand (b ++ d) s o1 b1 s1 (.ok ())) (hr : Hosts rand b1 s1 ds o2 b2 s2 r) :
      Hosts rand b s (d :: ds) (o1 ++ o2) b2 s2 r

end CBus.Spec
