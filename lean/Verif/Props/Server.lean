import Verif.Lemmas.Server
import Verif.Lemmas.Trace
import Verif.Props.Buffer
import Verif.Props.Client
import Verif.Props.Report

/-! # C50 – C54, C58: the simulated PCI -/

namespace CBus.Props
open CBus CBus.Spec

theorem andThen_ok {σ ω α β : Type} {m : Proc σ ω α} {f : α → Proc σ ω β} {s s1 : σ} {o1 : List ω} {a : α}
    (h : m s = (s1, o1, .ok a)) : Proc.andThen m f s = ((f a s1).1, o1 ++ (f a s1).2.1, (f a s1).2.2) := by
  simp [Proc.andThen, h]

theorem andThen_error {σ ω α β : Type} {m : Proc σ ω α} {f : α → Proc σ ω β} {s s1 : σ} {o1 : List ω} {e : PyErr}
    (h : m s = (s1, o1, .error e)) : Proc.andThen m f s = (s1, o1, .error e) := by
  simp [Proc.andThen, h]

/-! ## C50 -/

/-- The interface options (Serial Interface User Guide, "interface options 1"). -/
structure Options where
  connect : Bool
  checksum : Bool
  basic : Bool
  monitor : Bool
  idmon : Bool
  deriving DecidableEq

/-- The options of a simulated PCI. -/
def optionsOf (s : Server) : Options := ⟨s.connect, s.checksum, s.basic, s.monitor, s.idmon⟩

/-- The options selected by a byte: bits 0, 3, not 4, 5, 6. -/
def optionsFor (v : Nat) : Options :=
  ⟨v.testBit 0, v.testBit 3, !v.testBit 4, v.testBit 5, v.testBit 6⟩

theorem confirm_queue_only (conf : Option UInt8) (s : Server) :
    ∃ q, (Server.confirm conf s).1 = { s with queue := q } := by
  cases conf with
  | none => exact ⟨s.queue, rfl⟩
  | some c =>
    show ∃ q, (Server.sendConfirmation [c] true s).1 = _
    unfold Server.sendConfirmation
    split
    · exact ⟨s.queue, rfl⟩
    · unfold Server.send
      split
      · exact ⟨s.queue, rfl⟩
      · unfold Server.writeOut
        split
        · exact ⟨[], rfl⟩
        · exact ⟨s.queue, rfl⟩

/-- C50: parameters 0x30 and 0x41 set the options to exactly those of the value
(of its low byte: the value is one byte on the wire), whatever they were. -/
theorem C50_options (rand : Nat → Int) (q : DM) (s : Server)
    (hp : q.parameter = 0x30 ∨ q.parameter = 0x41) :
    optionsOf (Server.onPacket rand (.dm q) s).1 = optionsFor (q.value % 256).toNat := by
  have hd : Server.onDM q s =
      ({ s with connect := lowByte q.value &&& 0x01 != 0, checksum := lowByte q.value &&& 0x08 != 0,
                basic := lowByte q.value &&& 0x10 == 0, monitor := lowByte q.value &&& 0x20 != 0,
                idmon := lowByte q.value &&& 0x40 != 0 }, [], .ok true) := by
    unfold Server.onDM
    rw [if_neg (by omega), if_pos hp]
  have key : ∀ b : UInt8, (⟨b &&& 0x01 != 0, b &&& 0x08 != 0, b &&& 0x10 == 0, b &&& 0x20 != 0, b &&& 0x40 != 0⟩ : Options) =
      optionsFor b.toNat := by
    apply forall_byte; decide +kernel
  have hk := key (lowByte q.value)
  have hn : (lowByte q.value).toNat = (q.value % 256).toNat := by
    have := lowByte_toNat q.value; omega
  rw [hn] at hk
  have hconf : ∀ s : Server, optionsOf (Server.confirm q.conf s).1 = optionsOf s := by
    intro s
    obtain ⟨q', h⟩ := confirm_queue_only q.conf s
    rw [h]; rfl
  simp only [Server.onPacket, Proc.andThen, hd, if_true, hconf]
  exact hk

/-- C50: other parameters change nothing at all except that the confirmation, if
any, flushes the send queue. -/
theorem C50_other_parameters (rand : Nat → Int) (q : DM) (s : Server)
    (hp : q.parameter ≠ 0x30 ∧ q.parameter ≠ 0x41) :
    { (Server.onPacket rand (.dm q) s).1 with queue := s.queue } = s := by
  have hd : ∃ b, Server.onDM q s = (s, [], .ok b) := by
    unfold Server.onDM
    split
    · exact ⟨_, rfl⟩
    · rw [if_neg (by omega)]; exact ⟨_, rfl⟩
  obtain ⟨b, hd⟩ := hd
  simp only [Server.onPacket, Proc.andThen, hd]
  cases b with
  | false => rfl
  | true =>
    simp only [if_true]
    obtain ⟨q', h⟩ := confirm_queue_only q.conf s
    rw [h]

/-- C50: a reset restores the settings of a new object. -/
theorem C50_reset (rand : Nat → Int) (s : Server) :
    let s' := (Server.onPacket rand .reset s).1
    optionsOf s' = optionsOf ({} : Server) ∧ s'.app1 = ({} : Server).app1 ∧ s'.app2 = ({} : Server).app2 ∧
    (Server.onPacket rand .reset s).2 = ([.event .reset], .ok ()) :=
  ⟨rfl, rfl, rfl, rfl⟩

/-- The value with which `PCIProtocol` configures a PCI. -/
example : optionsFor 0x59 = ⟨true, true, false, false, true⟩ ∧ optionsOf ({} : Server) = ⟨false, false, true, false, false⟩ ∧
    optionsOf (Server.dataReceived (fun _ => 1) (ascii "A3300059g\r") ⟨[], { connected := true }⟩).1.st =
      optionsFor 0x59 := by decide +kernel

/-! ## C51 -/

/-- The packets sent (not echoed), in order. -/
def sentOf (o : List SEff) : List Bytes :=
  o.filterMap fun e => match e with
    | .write w => some w
    | _ => none

theorem sentOf_append (a b : List SEff) : sentOf (a ++ b) = sentOf a ++ sentOf b := by simp [sentOf]

theorem sentOf_map_write (q : List Bytes) : sentOf (q.map .write) = q := by
  induction q with
  | nil => rfl
  | cons w q ih =>
    simp only [sentOf, List.map_cons, List.filterMap_cons] at *
    rw [ih]

/-- A confirmation: a code and a full stop (success) or a mark of failure. -/
def isConfirmation (w : Bytes) : Bool :=
  match w with
  | [_, _] => !(w == [0x0d, 0x0a])
  | _ => false

/-- The confirmations sent. -/
def confirmationsOf (o : List SEff) : List Bytes := (sentOf o).filter isConfirmation

theorem confirmationsOf_append (a b : List SEff) :
    confirmationsOf (a ++ b) = confirmationsOf a ++ confirmationsOf b := by
  simp [confirmationsOf, sentOf_append]

theorem line_not_confirmation (l : Bytes) : isConfirmation (l ++ [0x0d, 0x0a]) = false := by
  match l with
  | [] => rfl
  | [_] => rfl
  | [_, _] => rfl
  | _ :: _ :: _ :: _ => rfl

theorem confirmations_queue {s : Server} (hq : Server.QueueLines s) :
    confirmationsOf (s.queue.map SEff.write) = [] := by
  unfold confirmationsOf
  rw [sentOf_map_write, List.filter_eq_nil_iff]
  intro w hw
  obtain ⟨l, rfl⟩ := hq w hw
  simp [line_not_confirmation]

/-- The SALs the simulated PCI knows what to do with. -/
def Understood (basic : Bool) : SAL → Bool
  | .lightOn _ | .lightOff _ | .lightTerminate _ | .lightRamp _ _ _ => true
  | .clockUpdate _ | .clockRequest => true
  | .statusRequest level _ child => !level && child == 0xff && basic
  | .temperature _ _ | .enableSet _ _ => false

/-- The commands the simulated PCI handles completely. -/
def Accepted (basic : Bool) : Packet → Bool
  | .pm q => q.sals.all (Understood basic)
  | .dm q => [0x21, 0x22, 0x30, 0x3e, 0x41, 0x42].contains q.parameter
  | _ => false

/-- The confirmation code of a command. -/
def codeOf : Packet → Option UInt8
  | .pm q => q.conf
  | .pp q => q.conf
  | .dm q => q.conf
  | _ => none

/-- What is left alone by handling a SAL. -/
def Kept (s s' : Server) : Prop :=
  s'.connected = true ∧ Server.QueueLines s' ∧ s'.basic = s.basic ∧ s'.checksum = s.checksum ∧
  s'.connect = s.connect ∧ s'.monitor = s.monitor ∧ s'.idmon = s.idmon

theorem Kept.refl {s : Server} (hc : s.connected = true) (hq : Server.QueueLines s) : Kept s s :=
  ⟨hc, hq, rfl, rfl, rfl, rfl, rfl⟩

theorem Kept.trans {s1 s2 s3 : Server} (h1 : Kept s1 s2) (h2 : Kept s2 s3) : Kept s1 s3 := by
  obtain ⟨-, -, a1, a2, a3, a4, a5⟩ := h1
  obtain ⟨b, c, b1, b2, b3, b4, b5⟩ := h2
  exact ⟨b, c, b1.trans a1, b2.trans a2, b3.trans a3, b4.trans a4, b5.trans a5⟩

theorem onSal_kept (rand : Nat → Int) (hr : Server.RandOk rand) (x : SAL) (s : Server) (hc : s.connected = true)
    (hq : Server.QueueLines s) :
    Kept s (Server.onSal rand x s).1 ∧ confirmationsOf (Server.onSal rand x s).2.1 = [] ∧
    ((Server.onSal rand x s).2.2 = .ok true ↔ Understood s.basic x = true) := by
  cases x with
  | statusRequest level ga child =>
    by_cases h : child = appStatusRequest ∧ level = false
    · have he : Server.onSal rand (.statusRequest level ga child) s =
          Proc.andThen (Server.onMasterStatus ga) (fun _ => pure true) s := by
        simp only [Server.onSal]; rw [if_pos h]
      rw [he]
      obtain ⟨h1, h2⟩ := h
      by_cases hb : s.basic = true
      · simp only [Proc.andThen, Server.onMasterStatus_eq ga s hc hb, pure]
        refine ⟨⟨hc, by simp [Server.QueueLines], rfl, rfl, rfl, rfl, rfl⟩, ?_, ?_⟩
        · simp only [List.append_nil, confirmationsOf_append, confirmations_queue hq]
          have key : confirmationsOf [SEff.write (Server.block 0)] ++
              confirmationsOf [SEff.write (Server.block 88), SEff.write (Server.block 176)] = [] := by decide +kernel
          exact key
        · simp [Understood, h1, h2, hb, appStatusRequest]
      · have hb' : s.basic = false := by simpa using hb
        simp only [Proc.andThen, Server.onMasterStatus, Proc.emit, hb', Bool.false_eq_true, if_false]
        refine ⟨Kept.refl hc hq, rfl, ?_⟩
        simp [Understood, hb']
    · have he : Server.onSal rand (.statusRequest level ga child) s = (s, [], .ok false) := by
        simp only [Server.onSal]; rw [if_neg h]; rfl
      rw [he]
      refine ⟨Kept.refl hc hq, rfl, ?_⟩
      have : ¬ (child = 0xff ∧ level = false) := h
      cases level <;> simp_all [Understood]
  | clockUpdate v =>
    obtain ⟨w1, w2, h⟩ := Server.onClockUpdate_eq rand hr v s
    simp only [Server.onSal, Proc.andThen, h, pure]
    refine ⟨⟨hc, ?_, rfl, rfl, rfl, rfl, rfl⟩, rfl, by simp [Understood]⟩
    intro w hw
    simp only [List.mem_append, List.mem_cons, List.not_mem_nil, or_false] at hw
    rcases hw with hw | rfl | rfl
    · exact hq w hw
    · exact ⟨_, rfl⟩
    · exact ⟨_, rfl⟩
  | temperature _ _ => exact ⟨Kept.refl hc hq, rfl, by simp [Server.onSal, pure, Understood]⟩
  | enableSet _ _ => exact ⟨Kept.refl hc hq, rfl, by simp [Server.onSal, pure, Understood]⟩
  | _ => exact ⟨Kept.refl hc hq, rfl, by simp [Server.onSal, Proc.andThen, Proc.emit, pure, Understood]⟩

theorem onSals_kept (rand : Nat → Int) (hr : Server.RandOk rand) : ∀ (l : List SAL) (s : Server),
    s.connected = true → Server.QueueLines s →
    Kept s (Server.onSals rand l s).1 ∧ confirmationsOf (Server.onSals rand l s).2.1 = [] ∧
    ((Server.onSals rand l s).2.2 = .ok true ↔ l.all (Understood s.basic) = true) := by
  intro l
  induction l with
  | nil => intro s hc hq; exact ⟨Kept.refl hc hq, rfl, by simp [Server.onSals, pure]⟩
  | cons x l ih =>
    intro s hc hq
    obtain ⟨h1, h2, h3⟩ := onSal_kept rand hr x s hc hq
    simp only [List.all_cons, Bool.and_eq_true]
    have he : Server.onSals rand (x :: l) s = Proc.andThen (Server.onSal rand x)
        (fun go => if go then Server.onSals rand l else pure false) s := rfl
    obtain ⟨s1, o1, r1, hx⟩ : ∃ s1 o1 r1, Server.onSal rand x s = (s1, o1, r1) := ⟨_, _, _, rfl⟩
    rw [hx] at h1 h2 h3
    simp only at h1 h2 h3
    cases r1 with
    | error e =>
      rw [he, andThen_error hx]
      refine ⟨h1, h2, ?_⟩
      rw [← h3]
      simp
    | ok b =>
      rw [he, andThen_ok hx]
      cases b with
      | false =>
        have hf : ((if false = true then Server.onSals rand l else pure false) s1 : Server × List SEff × Py Bool) =
            (s1, [], .ok false) := rfl
        simp only [hf, List.append_nil]
        refine ⟨h1, h2, ?_⟩
        rw [← h3]
        simp
      | true =>
        simp only [if_true]
        obtain ⟨g1, g2, g3⟩ := ih s1 h1.1 h1.2.1
        refine ⟨h1.trans g1, by rw [confirmationsOf_append, h2, g2]; rfl, ?_⟩
        rw [g3, h1.2.2.1, ← h3]
        simp

/-- C51: a command with a confirmation code is confirmed exactly once, with that
code, if the simulated PCI handles all of it, and not at all otherwise. A
command without a code is never confirmed. (`QueueLines` holds in every history,
see `C51_queue_lines`.) -/
theorem C51_confirmed (rand : Nat → Int) (hr : Server.RandOk rand) (p : Packet)
    (hcode : ∀ c, codeOf p = some c → c ∈ confirmationCodes) (s : Server) (hc : s.connected = true)
    (hq : Server.QueueLines s) :
    confirmationsOf (Server.onPacket rand p s).2.1 =
      if Accepted s.basic p then (codeOf p).toList.map (fun c => [c, 0x2e]) else [] := by
  have hconf : ∀ (conf : Option UInt8), (∀ c, conf = some c → c ∈ confirmationCodes) → ∀ s : Server, s.connected = true →
      Server.QueueLines s →
      confirmationsOf (Server.confirm conf s).2.1 = conf.toList.map (fun c => [c, 0x2e]) := by
    intro conf hcc s hc hq
    cases conf with
    | none => rfl
    | some c =>
      simp only [Server.confirm, Server.sendConfirmation_eq (hcc c rfl) true s hc, if_true]
      have : (SEff.write [c, 0x2e] :: s.queue.map .write) = [SEff.write [c, 0x2e]] ++ s.queue.map .write := rfl
      rw [this, confirmationsOf_append, confirmations_queue hq]
      simp [confirmationsOf, sentOf, isConfirmation]
  cases p with
  | pm q =>
    obtain ⟨h1, h2, h3⟩ := onSals_kept rand hr q.sals s hc hq
    have hg := hconf q.conf hcode
    have he : Server.onPacket rand (.pm q) s = Proc.andThen (Server.onSals rand q.sals)
        (fun go => if go then Server.confirm q.conf else pure ()) s := rfl
    obtain ⟨s1, o1, r1, hx⟩ : ∃ s1 o1 r1, Server.onSals rand q.sals s = (s1, o1, r1) := ⟨_, _, _, rfl⟩
    rw [hx] at h1 h2 h3
    simp only at h1 h2 h3
    have hacc : Accepted s.basic (.pm q) = q.sals.all (Understood s.basic) := rfl
    have hcd : codeOf (.pm q) = q.conf := rfl
    rw [hcd]
    cases r1 with
    | error e =>
      have hn : ¬ Accepted s.basic (.pm q) = true := by rw [hacc, ← h3]; simp
      rw [he, andThen_error hx, if_neg hn]; exact h2
    | ok b =>
      rw [he, andThen_ok hx]
      cases b with
      | false =>
        have hn : ¬ Accepted s.basic (.pm q) = true := by rw [hacc, ← h3]; simp
        rw [if_neg hn]
        have hf : ((if false = true then Server.confirm q.conf else pure ()) s1 : Server × List SEff × Py Unit) =
            (s1, [], .ok ()) := rfl
        simp only [hf, List.append_nil]
        exact h2
      | true =>
        have hy : Accepted s.basic (.pm q) = true := by rw [hacc, ← h3]
        rw [if_pos hy]
        simp only [if_true]
        rw [confirmationsOf_append, h2, hg s1 h1.1 h1.2.1]
        rfl
  | dm q =>
    have hg := hconf q.conf hcode
    have he : Server.onPacket rand (.dm q) s = Proc.andThen (Server.onDM q)
        (fun go => if go then Server.confirm q.conf else pure ()) s := rfl
    have hcd : codeOf (.dm q) = q.conf := rfl
    rw [hcd]
    have hd : ∃ s', Server.onDM q s = (s', [], .ok ([0x21, 0x22, 0x30, 0x3e, 0x41, 0x42].contains q.parameter)) ∧
        s'.connected = true ∧ Server.QueueLines s' := by
      unfold Server.onDM
      split
      · rename_i h
        refine ⟨s, ?_, hc, hq⟩
        rcases h with h | h | h | h <;> simp [h]
      · split
        · rename_i h
          refine ⟨{ s with connect := lowByte q.value &&& 0x01 != 0, checksum := lowByte q.value &&& 0x08 != 0, basic := lowByte q.value &&& 0x10 == 0, monitor := lowByte q.value &&& 0x20 != 0, idmon := lowByte q.value &&& 0x40 != 0 }, ?_, hc, hq⟩
          rcases h with h | h <;> simp [h]
        · rename_i h1 h2
          refine ⟨s, ?_, hc, hq⟩
          simp only [not_or] at h1 h2
          simp [h1, h2]
    obtain ⟨s', hd, hc', hq'⟩ := hd
    have hacc : Accepted s.basic (.dm q) = ([0x21, 0x22, 0x30, 0x3e, 0x41, 0x42] : List Int).contains q.parameter := rfl
    generalize ([0x21, 0x22, 0x30, 0x3e, 0x41, 0x42] : List Int).contains q.parameter = b at hd hacc
    rw [he, andThen_ok hd, hacc]
    cases b with
    | true =>
      simp only [List.nil_append, if_true]
      exact hg s' hc' hq'
    | false => rfl
  | _ => rfl

example : Accepted false (.pm { app := some 0x38, sals := [.lightOn 1, .clockRequest], conf := some 0x67 }) = true ∧
    Accepted false (.pm { app := some 0xff, sals := [.statusRequest false 0 0xff], conf := some 0x67 }) = false ∧
    (Server.dataReceived (fun _ => 1) (ascii "\\053800790149g\r\\05DF00110308h\r\\053800790149\r")
      ⟨[], { connected := true, basic := false, checksum := true }⟩).2 =
      ([.event (.lightingOn 1), .write (ascii "g."), .event .clockRequest, .write (ascii "h."),
        .event (.lightingOn 1)], .ok ()) := by decide +kernel

/-! ## C52 -/

/-- What a send queue looks like from outside: starting with `q` in the queue,
the trace can be explained, and leaves `q'` in it. Each packet sent is followed
at once by everything that is in the queue, in order, which is then empty. -/
inductive Fifo : List Bytes → List SEff → List Bytes → Prop
  | nil (q : List Bytes) : Fifo q [] q
  | queued {q t q'} (w : Bytes) : Fifo (q ++ [w]) t q' → Fifo q (.queued w :: t) q'
  | write {q t q'} (w : Bytes) : Fifo [] t q' → Fifo q (.write w :: (q.map .write ++ t)) q'
  | echo {q t q'} (b : Bytes) : Fifo q t q' → Fifo q (.echo b :: t) q'
  | event {q t q'} (e : SEvent) : Fifo q t q' → Fifo q (.event e :: t) q'

theorem Fifo.append {q t1 q1 t2 q2} (h1 : Fifo q t1 q1) (h2 : Fifo q1 t2 q2) : Fifo q (t1 ++ t2) q2 := by
  induction h1 with
  | nil => exact h2
  | queued w _ ih => exact .queued w (ih h2)
  | write w _ ih =>
    rw [List.cons_append, List.append_assoc]
    exact .write w (ih h2)
  | echo b _ ih => exact .echo b (ih h2)
  | event e _ ih => exact .event e (ih h2)

/-- A relation closed under sequencing that holds of each thing the methods for
sending and for handling application messages are made of. -/
structure SendRel (T : Server → List SEff → Server → Prop) : Prop extends TraceRel T where
  write : ∀ s w, s.connected = true → T s (.write w :: s.queue.map .write) { s with queue := [] }
  queued : ∀ s p w n, Server.serialize (.pm p) = .ok w →
    T s [.queued w] { s with rngPos := n, queue := s.queue ++ [w] }
  rng : ∀ s n, T s [] { s with rngPos := n }
  event : ∀ s e, T s [.event e] s

/-- The same for all methods, without echoing. -/
structure ActRel (T : Server → List SEff → Server → Prop) : Prop extends SendRel T where
  options : ∀ s a b c d e, T s [] { s with connect := a, checksum := b, basic := c, monitor := d, idmon := e }
  apps : ∀ s a b, T s [] { s with app1 := a, app2 := b }
  made : ∀ s, T s [] { s with connected := true }

/-- The same, with echoing. -/
structure ServerRel (T : Server → List SEff → Server → Prop) : Prop extends ActRel T where
  echo : ∀ s b, s.connected = true → s.basic = true → T s [.echo b] s

namespace SendRel
variable {T : Server → List SEff → Server → Prop} (hT : SendRel T)
include hT

theorem writeOut (w : Bytes) : Keeps T (Server.writeOut w) := by
  intro s
  unfold Server.writeOut
  split
  · exact hT.write s w (by assumption)
  · exact hT.nil s

theorem send (p : Packet) : Keeps T (Server.send p) := by
  intro s
  unfold Server.send
  split
  · exact hT.nil s
  · exact hT.writeOut _ s

theorem sendConfirmation (c : Bytes) (ok : Bool) : Keeps T (Server.sendConfirmation c ok) := by
  intro s
  unfold Server.sendConfirmation
  split
  · exact hT.nil s
  · exact hT.send _ s

theorem sendEvent (x : Py SAL) (src : Int) : Keeps T (Server.sendEvent x src) := by
  intro s
  unfold Server.sendEvent
  split
  · exact hT.nil s
  · exact hT.send _ s

theorem queueRandom (rand : Nat → Int) (mk : Int → Py SAL) : Keeps T (Server.queueRandom rand mk) := by
  intro s
  unfold Server.queueRandom
  split
  · exact hT.rng s _
  · rename_i p hp
    unfold Server.sendLater
    split
    · exact hT.rng s _
    · rename_i w hw
      unfold Server.eventPacket at hp
      split at hp
      · cases hp
      · split at hp
        · cases hp
        · injection hp with hp
          subst hp
          exact hT.queued s _ w _ hw

theorem emit (e : SEvent) : Keeps T (Proc.emit (.event e)) := fun s => hT.event s e

theorem sendBlock (x : Nat) : Keeps T (Server.sendBlock x) := by
  intro s
  unfold Server.sendBlock
  split
  · exact hT.nil s
  · exact hT.writeOut _ s

theorem onSal (rand : Nat → Int) (x : SAL) : Keeps T (Server.onSal rand x) := by
  have pr : ∀ b : Bool, Keeps T (pure b) := fun b => Keeps.pure hT.toTraceRel b
  have hm : ∀ ga, Keeps T (Server.onMasterStatus ga) := by
    intro ga
    refine Keeps.andThen hT.toTraceRel (hT.emit _) (fun _ s => ?_)
    by_cases hb : s.basic = true
    · simp only [hb, if_true]
      exact Keeps.andThen hT.toTraceRel (hT.sendBlock 0) (fun _ => Keeps.andThen hT.toTraceRel (hT.sendBlock _)
        (fun _ => hT.sendBlock _)) s
    · simp only [hb]
      exact hT.nil s
  cases x with
  | statusRequest level ga child =>
    unfold Server.onSal
    simp only
    split
    · exact Keeps.andThen hT.toTraceRel (hm ga) (fun _ => pr _)
    · exact pr _
  | clockUpdate v =>
    exact Keeps.andThen hT.toTraceRel (Keeps.andThen hT.toTraceRel (hT.emit _) (fun _ => Keeps.andThen hT.toTraceRel
      (hT.queueRandom _ _) (fun _ => hT.queueRandom _ _))) (fun _ => pr _)
  | temperature _ _ => exact pr _
  | enableSet _ _ => exact pr _
  | _ => exact Keeps.andThen hT.toTraceRel (hT.emit _) (fun _ => pr _)

theorem onSals (rand : Nat → Int) : ∀ l, Keeps T (Server.onSals rand l)
  | [] => Keeps.pure hT.toTraceRel true
  | x :: l => by
    refine Keeps.andThen hT.toTraceRel (hT.onSal rand x) (fun go => ?_)
    cases go
    · exact Keeps.pure hT.toTraceRel false
    · exact onSals rand l

theorem confirm (conf : Option UInt8) : Keeps T (Server.confirm conf) := by
  cases conf with
  | none => exact Keeps.pure hT.toTraceRel ()
  | some c => exact hT.sendConfirmation [c] true

end SendRel

namespace ActRel
variable {T : Server → List SEff → Server → Prop} (hT : ActRel T)
include hT

theorem onPacket (rand : Nat → Int) (p : Packet) : Keeps T (Server.onPacket rand p) := by
  have ite : ∀ (go : Bool) (conf : Option UInt8),
      Keeps T (if go then Server.confirm conf else pure () : Proc Server SEff Unit) := by
    intro go conf
    cases go
    · exact Keeps.pure hT.toTraceRel ()
    · exact hT.confirm conf
  cases p with
  | pm q => exact Keeps.andThen hT.toTraceRel (hT.onSals rand q.sals) (fun go => ite go q.conf)
  | dm q =>
    refine Keeps.andThen hT.toTraceRel ?_ (fun go => ite go q.conf)
    intro s
    unfold Server.onDM
    split
    · exact hT.nil s
    · split
      · exact hT.options s _ _ _ _ _
      · exact hT.nil s
  | reset =>
    exact fun s => hT.append (hT.event s _) (hT.append (hT.options s false false true false false)
      (hT.apps { s with connect := false, checksum := false, basic := true, monitor := false, idmon := false } 0xff 0xff))
  | smartConnect => exact fun s => hT.options s _ _ _ _ _
  | _ => exact Keeps.pure hT.toTraceRel ()

end ActRel

/-! ## C50, the other packets -/

/-- C50: the shortcut command enters smart mode with the connect option and leaves
everything else, whatever the options were, and answers nothing. -/
theorem C50_shortcut (rand : Nat → Int) (s : Server) :
    let r := Server.onPacket rand .smartConnect s
    optionsOf r.1 = { optionsOf s with connect := true, basic := false } ∧
    r.1.queue = s.queue ∧ r.1.app1 = s.app1 ∧ r.1.app2 = s.app2 ∧ r.2 = ([], .ok ()) :=
  ⟨rfl, rfl, rfl, rfl, rfl⟩

/-- C50: no other packet touches the options or the application addresses. -/
theorem C50_untouched (rand : Nat → Int) (p : Packet) (s : Server) (h1 : p ≠ .reset) (h2 : p ≠ .smartConnect)
    (h3 : ∀ q, p ≠ .dm q) :
    optionsOf (Server.onPacket rand p s).1 = optionsOf s ∧ (Server.onPacket rand p s).1.app1 = s.app1 ∧
    (Server.onPacket rand p s).1.app2 = s.app2 ∧ (Server.onPacket rand p s).1.connected = s.connected := by
  let T : Server → List SEff → Server → Prop := fun s _ s' =>
    optionsOf s' = optionsOf s ∧ s'.app1 = s.app1 ∧ s'.app2 = s.app2 ∧ s'.connected = s.connected
  have hT : SendRel T := {
    nil := fun s => ⟨rfl, rfl, rfl, rfl⟩
    append := fun h h' => ⟨h'.1.trans h.1, h'.2.1.trans h.2.1, h'.2.2.1.trans h.2.2.1, h'.2.2.2.trans h.2.2.2⟩
    write := fun s w _ => ⟨rfl, rfl, rfl, rfl⟩
    queued := fun s p w n _ => ⟨rfl, rfl, rfl, rfl⟩
    rng := fun s n => ⟨rfl, rfl, rfl, rfl⟩
    event := fun s e => ⟨rfl, rfl, rfl, rfl⟩ }
  cases p with
  | reset => exact absurd rfl h1
  | smartConnect => exact absurd rfl h2
  | dm q => exact absurd rfl (h3 q)
  | pm q =>
    refine Keeps.andThen hT.toTraceRel (hT.onSals rand q.sals) (fun go => ?_) s
    cases go
    · exact Keeps.pure hT.toTraceRel ()
    · exact hT.confirm q.conf
  | _ => exact ⟨rfl, rfl, rfl, rfl⟩

/-- The shortcut after a command that selects other options, and a lighting command
afterwards. -/
example : optionsOf (Server.dataReceived (fun _ => 1) (ascii "A3300068g\r|\r0538000108BAg\r")
      ⟨[], { connected := true }⟩).1.st = ⟨true, true, false, true, true⟩ ∧
    optionsFor 0x68 = ⟨false, true, true, true, true⟩ := by decide +kernel

theorem ServerRel.handle {T : Server → List SEff → Server → Prop} (hT : ServerRel T) (rand : Nat → Int) (b : Bytes) : Keeps T (Server.handle rand b) := by
  refine Keeps.handleData hT.toTraceRel ?_ (hT.toActRel.onPacket rand) b
  intro d s
  unfold Server.echo
  split
  · split
    · exact hT.echo s d (by assumption) (by assumption)
    · exact hT.nil s
  · exact hT.nil s


/-- What can happen to a simulated PCI. -/
inductive ServerOp
  | made
  | receive (d : Bytes)
  | on (src ga : Int)
  | off (src ga : Int)
  | terminate (src ga : Int)
  | ramp (src ga duration : Int) (level : PyNum)
  | error
  | confirmation (code : Bytes) (ok : Bool)

/-- A method of the object, with the receive buffer alongside. -/
def onServer (m : Proc Server SEff Unit) (c : Conn Server) : Conn Server × List SEff :=
  ({ c with st := (m c.st).1 }, (m c.st).2.1)

/-- One operation; whoever performs it copes with any exception. -/
def runServerOp (rand : Nat → Int) : ServerOp → Conn Server → Conn Server × List SEff
  | .made, c => onServer Server.connectionMade c
  | .receive d, c => ((Server.dataReceived rand d c).1, (Server.dataReceived rand d c).2.1)
  | .on src ga, c => onServer (Server.lightingGroupOn src ga) c
  | .off src ga, c => onServer (Server.lightingGroupOff src ga) c
  | .terminate src ga, c => onServer (Server.lightingGroupTerminate src ga) c
  | .ramp src ga d l, c => onServer (Server.lightingGroupRamp src ga d l) c
  | .error, c => onServer Server.sendError c
  | .confirmation code ok, c => onServer (Server.sendConfirmation code ok) c

/-- A history: everything it did. -/
def runServerOps (rand : Nat → Int) : List ServerOp → Conn Server → Conn Server × List SEff
  | [], c => (c, [])
  | op :: ops, c =>
    let r := runServerOp rand op c
    let r' := runServerOps rand ops r.1
    (r'.1, r.2 ++ r'.2)

theorem ServerRel.runServerOp {T : Server → List SEff → Server → Prop} (hT : ServerRel T) (rand : Nat → Int)
    (op : ServerOp) (c : Conn Server) : T c.st (runServerOp rand op c).2 (runServerOp rand op c).1.st := by
  cases op with
  | made =>
    exact Keeps.andThen (m := Proc.modify fun s => { s with connected := true }) hT.toTraceRel
      (fun s => hT.made s) (fun _ => hT.toActRel.send .powerOn) c.st
  | receive d => exact Keeps.dataReceived hT.toTraceRel (hT.handle rand) maxBufferSize d c
  | on src ga => exact hT.toActRel.sendEvent _ _ c.st
  | off src ga => exact hT.toActRel.sendEvent _ _ c.st
  | terminate src ga => exact hT.toActRel.sendEvent _ _ c.st
  | ramp src ga d l => exact hT.toActRel.sendEvent _ _ c.st
  | error => exact hT.toActRel.send _ c.st
  | confirmation code ok => exact hT.toActRel.sendConfirmation code ok c.st

/-- Such a relation holds of every history. -/
theorem ServerRel.runServerOps {T : Server → List SEff → Server → Prop} (hT : ServerRel T) (rand : Nat → Int) :
    ∀ (ops : List ServerOp) (c : Conn Server), T c.st (runServerOps rand ops c).2 (runServerOps rand ops c).1.st := by
  intro ops
  induction ops with
  | nil => exact fun c => hT.nil c.st
  | cons op ops ih => exact fun c => hT.append (hT.runServerOp rand op c) (ih _)

theorem fifoRel : ServerRel (fun s t s' => Fifo s.queue t s'.queue) where
  nil _ := .nil _
  append h1 h2 := h1.append h2
  write s w _ := by
    have := Fifo.write (q := s.queue) w (.nil [])
    rwa [List.append_nil] at this
  queued s p w n _ := .queued w (.nil _)
  rng _ _ := .nil _
  event _ e := .event e (.nil _)
  echo _ b _ _ := .echo b (.nil _)
  options _ _ _ _ _ _ := .nil _
  apps _ _ _ := .nil _
  made _ := .nil _

/-- C52: over every history, with or without exceptions, each packet sent is
followed at once by everything queued before it and not yet sent, in the order in
which it was queued, and nothing else is ever taken out of the queue. -/
theorem C52_fifo (rand : Nat → Int) (ops : List ServerOp) (c : Conn Server) :
    Fifo c.st.queue (runServerOps rand ops c).2 (runServerOps rand ops c).1.st.queue :=
  fifoRel.runServerOps rand ops c

/-- The packets queued, in order. -/
def queuedOf (o : List SEff) : List Bytes :=
  o.filterMap fun e => match e with
    | .queued w => some w
    | _ => none

theorem queuedOf_map_write (q : List Bytes) : queuedOf (q.map .write) = [] := by
  induction q with
  | nil => rfl
  | cons w q ih => exact ih

theorem Fifo.conserved {q t q'} (h : Fifo q t q') :
    ∃ flushed : List Bytes, flushed.Sublist (sentOf t) ∧ q ++ queuedOf t = flushed ++ q' := by
  induction h with
  | nil q => exact ⟨[], .slnil, by simp [queuedOf]⟩
  | queued w _ ih =>
    obtain ⟨f, h1, h2⟩ := ih
    refine ⟨f, h1, ?_⟩
    simp only [List.append_assoc] at h2
    exact h2
  | @write q t q' w _ ih =>
    obtain ⟨f, h1, h2⟩ := ih
    refine ⟨q ++ f, ?_, ?_⟩
    · have hs : sentOf (SEff.write w :: (q.map .write ++ t)) = w :: (q ++ sentOf t) := by
        have := sentOf_append (q.map .write) t
        rw [sentOf_map_write] at this
        rw [← this]; rfl
      rw [hs]
      exact .cons w ((List.Sublist.refl q).append h1)
    · have hq : queuedOf (SEff.write w :: (q.map .write ++ t)) = queuedOf t := by
        have : queuedOf (q.map SEff.write ++ t) = queuedOf (q.map SEff.write) ++ queuedOf t := by
          simp [queuedOf]
        rw [queuedOf_map_write] at this
        exact this
      rw [hq, List.append_assoc]
      simpa using h2
  | echo b _ ih => exact ih
  | event e _ ih => exact ih

/-- C52: so nothing queued is lost or duplicated: what was in the queue and what
was put there is, in order, what was sent from it followed by what is still in
it. -/
theorem C52_conserved (rand : Nat → Int) (ops : List ServerOp) (c : Conn Server) :
    let r := runServerOps rand ops c
    ∃ flushed : List Bytes, flushed.Sublist (sentOf r.2) ∧ c.st.queue ++ queuedOf r.2 = flushed ++ r.1.st.queue :=
  (C52_fifo rand ops c).conserved

theorem queuedOf_append (a b : List SEff) : queuedOf (a ++ b) = queuedOf a ++ queuedOf b := by simp [queuedOf]

theorem queuedLines : ServerRel (fun _ t _ => ∀ w ∈ queuedOf t, ∃ l, w = l ++ [0x0d, 0x0a]) where
  nil _ := by simp [queuedOf]
  append h1 h2 := by
    intro w hw
    rw [queuedOf_append] at hw
    rcases List.mem_append.1 hw with h | h
    · exact h1 w h
    · exact h2 w h
  write s w _ := by
    show ∀ w ∈ queuedOf (s.queue.map .write), _
    rw [queuedOf_map_write]; simp
  queued s p w n h := by
    intro w' hw
    have : w' = w := by simpa [queuedOf] using hw
    subst this
    unfold Server.serialize at h
    split at h
    · cases h
    · injection h with h
      exact ⟨_, h.symm⟩
  rng _ _ := by simp [queuedOf]
  event _ e := by simp [queuedOf]
  echo _ b _ _ := by simp [queuedOf]
  options _ _ _ _ _ _ := by simp [queuedOf]
  apps _ _ _ := by simp [queuedOf]
  made _ := by simp [queuedOf]

/-- C51: the hypothesis of `C51_confirmed` holds throughout every history: what is
in the send queue is never a confirmation. -/
theorem C51_queue_lines (rand : Nat → Int) (ops : List ServerOp) (c : Conn Server) (hc : Server.QueueLines c.st) :
    Server.QueueLines (runServerOps rand ops c).1.st := by
  have key := queuedLines.runServerOps rand ops c
  obtain ⟨f, -, h⟩ := C52_conserved rand ops c
  intro w hw
  have : w ∈ c.st.queue ++ queuedOf (runServerOps rand ops c).2 := by
    rw [h]; exact List.mem_append_right _ hw
  rcases List.mem_append.1 this with h1 | h1
  · exact hc w h1
  · exact key w h1


/-- A clock update queues four events; they follow its confirmation. -/
example :
    let r := runServerOps (fun n => n + 1) [.made, .receive (ascii "\\05DF000E0207E8021D030D010C2238FF88h\r"), .on 5 1]
      (⟨[], { checksum := true, basic := false }⟩ : Conn Server)
    let q := [ascii "05023800790147\r\n", ascii "050438000103BB\r\n", ascii "0506380079053F\r\n", ascii "050838000107B3\r\n"]
    queuedOf r.2 = q ∧ sentOf r.2 = [ascii "++\r\n", ascii "h."] ++ q ++ [ascii "05053800790144\r\n"] := by
  decide +kernel

/-! ## C53 -/

/-- What was echoed, in order. -/
def echoesOf (o : List SEff) : List Bytes :=
  o.filterMap fun e => match e with
    | .echo b => some b
    | _ => none

theorem echoesOf_append (a b : List SEff) : echoesOf (a ++ b) = echoesOf a ++ echoesOf b := by simp [echoesOf]

theorem echoesOf_map_write (q : List Bytes) : echoesOf (q.map .write) = [] := by
  induction q with
  | nil => rfl
  | cons w q ih => exact ih

theorem noEcho : ActRel (fun _ t _ => echoesOf t = []) where
  nil _ := rfl
  append h1 h2 := by rw [echoesOf_append, h1, h2]; rfl
  write s w _ := echoesOf_map_write s.queue
  queued _ _ _ _ _ := rfl
  rng _ _ := rfl
  event _ _ := rfl
  options _ _ _ _ _ _ := rfl
  apps _ _ _ := rfl
  made _ := rfl

theorem staysConnected : ServerRel (fun s _ s' => s.connected = true → s'.connected = true) where
  nil _ h := h
  append h1 h2 h := h2 (h1 h)
  write _ _ _ h := h
  queued _ _ _ _ _ h := h
  rng _ _ h := h
  event _ _ h := h
  echo _ _ _ _ h := h
  options _ _ _ _ _ _ h := h
  apps _ _ _ h := h
  made _ _ := rfl

/-- The code of a decoded command is one of the twenty. -/
theorem decoded_code {b : Bytes} {cs : Bool} {p : Packet} {n : Nat}
    (h : decodePacket b cs true false = .ok (some p, n)) (c : UInt8) (hc : codeOf p = some c) :
    c ∈ confirmationCodes := by
  have body : ∀ (d : Bytes) (k : Nat) (cs dm : Bool) (conf : Option UInt8) (q : Packet) (m : Nat),
      decodeBody d k cs false dm conf = .ok (some q, m) → codeOf q = none ∨ codeOf q = conf := by
    intro d k cs dm conf q m h
    unfold decodeBody at h
    split at h
    · cases h
    · split at h
      · simp only [Except.ok.injEq, Prod.mk.injEq, Option.some.injEq] at h
        rw [← h.1]; exact .inl rfl
      · simp only [Bool.false_eq_true, if_false] at h
        split at h
        · simp only [Except.ok.injEq, Prod.mk.injEq, Option.some.injEq] at h
          rw [← h.1]; exact .inl rfl
        · rename_i p _ _
          simp only [Except.ok.injEq, Prod.mk.injEq, Option.some.injEq] at h
          rw [← h.1]
          cases p with
          | pm q => exact .inr rfl
          | pp q => exact .inr rfl
          | dm q => exact .inr rfl
          | _ => exact .inl rfl
  have hex : ∀ (d : Bytes) (k : Nat) (cs dm : Bool) (conf : Option UInt8) (q : Packet) (m : Nat),
      decodeHex d k cs true false dm conf = .ok (some q, m) → codeOf q = none ∨ codeOf q = conf := by
    intro d k cs dm conf q m h
    unfold decodeHex at h
    split at h
    · split at h
      · cases h
      · unfold decodeRaw at h
        split at h
        · split at h
          · cases h
          · split at h
            · simp only [Except.ok.injEq, Prod.mk.injEq, Option.some.injEq] at h
              rw [← h.1]; exact .inl rfl
            · exact body _ _ _ _ _ _ _ h
        · exact body _ _ _ _ _ _ _ h
    · simp only [Except.ok.injEq, Prod.mk.injEq, Option.some.injEq] at h
      rw [← h.1]; exact .inl rfl
  have conf : ∀ (d : Bytes) (k : Nat) (cs dm : Bool) (q : Packet) (m : Nat),
      decodeConf d k cs true dm = .ok (some q, m) → ∀ c, codeOf q = some c → c ∈ confirmationCodes := by
    intro d k cs dm q m h c hc
    unfold decodeConf at h
    split at h
    · cases h
    · split at h
      · rcases hex _ _ _ _ _ _ _ h with h | h <;> simp [h] at hc
      · split at h
        · simp only [Except.ok.injEq, Prod.mk.injEq, Option.some.injEq] at h
          rw [← h.1] at hc; simp [codeOf] at hc
        · rename_i l _ _ hl
          rcases hex _ _ _ _ _ _ _ h with h | h
          · simp [h] at hc
          · rw [h, Option.some.injEq] at hc
            subst hc
            simpa using hl
  unfold decodePacket at h
  simp only [Bool.false_eq_true, if_false] at h
  split at h
  · rename_i p' n' hf
    simp only [Except.ok.injEq, Prod.mk.injEq] at h
    obtain ⟨rfl, rfl⟩ := h
    unfold frameClient at hf
    repeat' split at hf
    all_goals simp only [Framed.result.injEq, Option.some.injEq, reduceCtorEq, false_and] at hf
    all_goals (rw [← hf.1] at hc; simp [codeOf] at hc)
  · unfold decodeLine at h
    split at h
    · simp at h
    · simp only [Bool.false_eq_true, if_false] at h
      split at h
      · exact conf _ _ _ _ _ _ h c hc
      · split at h
        · exact conf _ _ _ _ _ _ h c hc
        · exact conf _ _ _ _ _ _ h c hc

/-- In basic mode no command makes the simulated PCI raise. -/
theorem basic_no_raise (rand : Nat → Int) (hr : Server.RandOk rand) (p : Packet)
    (hcode : ∀ c, codeOf p = some c → c ∈ confirmationCodes) (s : Server) (hc : s.connected = true)
    (hb : s.basic = true) : (Server.onPacket rand p s).2.2 = .ok () := by
  have conf : ∀ (conf : Option UInt8), (∀ c, conf = some c → c ∈ confirmationCodes) → ∀ s : Server, s.connected = true →
      (Server.confirm conf s).2.2 = .ok () := by
    intro conf hcc s hc
    cases conf with
    | none => rfl
    | some c =>
      show (Server.sendConfirmation [c] true s).2.2 = _
      rw [Server.sendConfirmation_eq (hcc c rfl) true s hc]
  have one : ∀ (x : SAL) (s : Server), s.connected = true → s.basic = true →
      ∃ s' o b, Server.onSal rand x s = (s', o, .ok b) ∧ s'.connected = true ∧ s'.basic = true := by
    intro x s hc hb
    cases x with
    | statusRequest level ga child =>
      by_cases h : child = appStatusRequest ∧ level = false
      · have he : Server.onSal rand (.statusRequest level ga child) s =
            Proc.andThen (Server.onMasterStatus ga) (fun _ => pure true) s := by
          simp only [Server.onSal]; rw [if_pos h]
        rw [he, andThen_ok (Server.onMasterStatus_eq ga s hc hb)]
        exact ⟨_, _, _, rfl, hc, hb⟩
      · have he : Server.onSal rand (.statusRequest level ga child) s = (s, [], .ok false) := by
          simp only [Server.onSal]; rw [if_neg h]; rfl
        exact ⟨_, _, _, he, hc, hb⟩
    | clockUpdate v =>
      obtain ⟨w1, w2, h⟩ := Server.onClockUpdate_eq rand hr v s
      have he : Server.onSal rand (.clockUpdate v) s = Proc.andThen (Server.onClockUpdate rand v) (fun _ => pure true) s := rfl
      rw [he, andThen_ok h]
      exact ⟨_, _, _, rfl, hc, hb⟩
    | temperature _ _ => exact ⟨_, _, _, rfl, hc, hb⟩
    | enableSet _ _ => exact ⟨_, _, _, rfl, hc, hb⟩
    | _ => exact ⟨_, _, _, rfl, hc, hb⟩
  have all : ∀ (l : List SAL) (s : Server), s.connected = true → s.basic = true →
      ∃ s' o b, Server.onSals rand l s = (s', o, .ok b) ∧ s'.connected = true := by
    intro l
    induction l with
    | nil => intro s hc _; exact ⟨_, _, _, rfl, hc⟩
    | cons x l ih =>
      intro s hc hb
      obtain ⟨s1, o1, b1, h1, h2, h3⟩ := one x s hc hb
      have he : Server.onSals rand (x :: l) s = Proc.andThen (Server.onSal rand x)
          (fun go => if go then Server.onSals rand l else pure false) s := rfl
      rw [he, andThen_ok h1]
      cases b1 with
      | false => exact ⟨_, _, _, rfl, h2⟩
      | true =>
        obtain ⟨s2, o2, b2, g1, g2⟩ := ih s1 h2 h3
        simp only [if_true, g1]
        exact ⟨_, _, _, rfl, g2⟩
  cases p with
  | pm q =>
    obtain ⟨s1, o1, b1, h1, h2⟩ := all q.sals s hc hb
    have he : Server.onPacket rand (.pm q) s = Proc.andThen (Server.onSals rand q.sals)
        (fun go => if go then Server.confirm q.conf else pure ()) s := rfl
    rw [he, andThen_ok h1]
    cases b1 with
    | false => rfl
    | true => exact conf q.conf hcode s1 h2
  | dm q =>
    have he : Server.onPacket rand (.dm q) s = Proc.andThen (Server.onDM q)
        (fun go => if go then Server.confirm q.conf else pure ()) s := rfl
    have hd : ∃ s' b, Server.onDM q s = (s', [], .ok b) ∧ s'.connected = true := by
      unfold Server.onDM
      repeat' split
      all_goals exact ⟨_, _, rfl, hc⟩
    obtain ⟨s1, b1, h1, h2⟩ := hd
    rw [he, andThen_ok h1]
    cases b1 with
    | false => rfl
    | true => exact conf q.conf hcode s1 h2
  | _ => rfl

/-- C53, one message: in basic mode the bytes of the message are echoed first,
once; the rest of what happens contains no echo. In smart mode there is none at
all. -/
theorem C53_message (rand : Nat → Int) (b : Bytes) (s : Server) (hc : s.connected = true) (p : Option Packet) (n : Nat)
    (hd : decodePacket b s.checksum true false = .ok (p, n)) :
    ∃ acts, (Server.handle rand b s).2.1 = (if s.basic ∧ 0 < n then [SEff.echo (b.take n)] else []) ++ acts ∧
      echoesOf acts = [] := by
  let act : Proc Server SEff Int :=
    Proc.andThen (match p with | some q => Server.onPacket rand q | none => pure ()) (fun _ => pure (n : Int))
  have hact : ∀ s, echoesOf (act s).2.1 = [] := by
    refine Keeps.andThen noEcho.toTraceRel ?_ (fun _ => Keeps.pure noEcho.toTraceRel _)
    split
    · exact noEcho.onPacket rand _
    · exact Keeps.pure noEcho.toTraceRel _
  have he : Server.handle rand b s =
      Proc.andThen (if True ∧ 0 < n then Server.echo (b.take n) else pure ()) (fun _ => act) s := by
    simp only [Server.handle, handleData, Bool.not_true, hd]; cases p <;> simp [act]
  refine ⟨(act s).2.1, ?_, hact s⟩
  rw [he]
  by_cases hn : 0 < n
  · have h1 : Server.echo (b.take n) s = (s, if s.basic then [SEff.echo (b.take n)] else [], .ok ()) := by
      unfold Server.echo; split <;> simp [hc]
    simp only [hn, and_self, if_true, and_true]
    rw [andThen_ok h1]
  · have h1 : (pure () : Proc Server SEff Unit) s = (s, [], .ok ()) := rfl
    simp only [hn, and_false, if_false]
    rw [andThen_ok h1]

/-- C53: data handled in basic mode before there is a connection has nowhere to be
echoed to: `AttributeError`, and nothing else happens. -/
theorem C53_unconnected (rand : Nat → Int) (b : Bytes) (s : Server) (hc : s.connected = false) (hb : s.basic = true)
    (p : Option Packet) (n : Nat) (hn : 0 < n) (hd : decodePacket b s.checksum true false = .ok (p, n)) :
    Server.handle rand b s = (s, [], .error .attributeError) := by
  simp only [Server.handle, handleData, Bool.not_true, hd]
  simp [hn, Proc.andThen, Server.echo, hc, hb]

example : Server.handle (fun _ => 1) (ascii "~") {} = ({}, [], .error .attributeError) :=
  C53_unconnected _ _ _ rfl rfl (some .reset) 1 (by decide) (by decide +kernel)

/-- The result of handling a message. -/
theorem handle_result (rand : Nat → Int) (hr : Server.RandOk rand) (b : Bytes) (s : Server) (hc : s.connected = true)
    (p : Option Packet) (n : Nat) (hd : decodePacket b s.checksum true false = .ok (p, n)) :
    (Server.handle rand b s).2.2 = .ok (n : Int) ∨
      (s.basic = false ∧ ∃ e, (Server.handle rand b s).2.2 = .error e) := by
  have he : Server.handle rand b s =
      Proc.andThen (if True ∧ 0 < n then Server.echo (b.take n) else pure ()) (fun _ =>
        Proc.andThen (match p with | some q => Server.onPacket rand q | none => pure ()) (fun _ => pure (n : Int))) s := by
    simp only [Server.handle, handleData, Bool.not_true, hd]; cases p <;> simp
  have h1 : ∃ o, (if True ∧ 0 < n then Server.echo (b.take n) else pure () : Proc Server SEff Unit) s = (s, o, .ok ()) := by
    by_cases hn : 0 < n
    · refine ⟨if s.basic then [SEff.echo (b.take n)] else [], ?_⟩
      simp only [hn, and_self, if_true]
      unfold Server.echo; split <;> simp [hc]
    · simp only [hn, and_false, if_false]; exact ⟨_, rfl⟩
  obtain ⟨o, h1⟩ := h1
  rw [he, andThen_ok h1]
  obtain ⟨s2, o2, r2, h2⟩ : ∃ s2 o2 r2,
      (match p with | some q => Server.onPacket rand q | none => pure () : Proc Server SEff Unit) s = (s2, o2, r2) := ⟨_, _, _, rfl⟩
  cases r2 with
  | ok u => exact .inl (by rw [andThen_ok h2]; rfl)
  | error e =>
    refine .inr ⟨?_, e, by rw [andThen_error h2]⟩
    cases p with
    | none => cases h2
    | some q =>
      cases hb : s.basic with
      | false => rfl
      | true =>
        have := basic_no_raise rand hr q (fun c => decoded_code hd c) s hc hb
        have h2' : Server.onPacket rand q s = (s2, o2, .error e) := h2
        rw [h2'] at this
        cases this

/-- C53: whatever is received (as long as the buffer does not overflow), and
whether or not it ends in an exception: the bytes fall into the messages handled
and the rest, and what is echoed is exactly the messages handled in basic mode, in
order. The mode is that in which the message is found. -/
theorem C53_stream (rand : Nat → Int) (hr : Server.RandOk rand) (c : Conn Server) (hc : c.st.connected = true)
    (d : Bytes) (hf : c.buf.length + d.length ≤ maxBufferSize) :
    let r := Server.dataReceived rand d c
    ∃ steps : List (Server × Bytes),
      (∀ x ∈ steps, ∃ rest, Reach (Server.handle rand) (c.buf ++ d) c.st (x.2 ++ rest) x.1) ∧
      (steps.map (·.2)).flatten ++ r.1.buf = c.buf ++ d ∧
      echoesOf r.2.1 = (steps.filter (·.1.basic)).map (·.2) := by
  have key : ∀ (k : Nat) (b : Bytes) (s : Server), b.length ≤ k → s.connected = true →
      let r := processBuffer (Server.handle rand) b s
      ∃ steps : List (Server × Bytes),
        (∀ x ∈ steps, ∃ rest, Reach (Server.handle rand) b s (x.2 ++ rest) x.1) ∧
        (steps.map (·.2)).flatten ++ r.1.buf = b ∧
        echoesOf r.2.1 = (steps.filter (·.1.basic)).map (·.2) := by
    intro k
    induction k with
    | zero =>
      intro b s hk _
      have : b = [] := List.eq_nil_of_length_eq_zero (by omega)
      subst this
      rw [processBuffer]
      exact ⟨[], by simp, by simp, rfl⟩
    | succ k ih =>
      intro b s hk hc
      rw [processBuffer]
      by_cases hb : b = []
      · rw [dif_pos hb]; exact ⟨[], by simp, by simp, rfl⟩
      rw [dif_neg hb]
      cases hd : decodePacket b s.checksum true false with
      | error e =>
        have : Server.handle rand b s = (s, [], .error e) := by
          simp only [Server.handle, handleData, Bool.not_true, hd]
        rw [this]
        exact ⟨[], by simp, by simp, rfl⟩
      | ok pn =>
        obtain ⟨p, n⟩ := pn
        obtain ⟨acts, h1, h2⟩ := C53_message rand b s hc p n hd
        have h3 := handle_result rand hr b s hc p n hd
        have h4 := staysConnected.handle rand b s hc
        obtain ⟨s1, o1, r1, hh⟩ : ∃ s1 o1 r1, Server.handle rand b s = (s1, o1, r1) := ⟨_, _, _, rfl⟩
        rw [hh] at h1 h3 h4 ⊢
        simp only at h1 h3 h4 ⊢
        have he : echoesOf o1 = if s.basic = true ∧ 0 < n then [b.take n] else [] := by
          rw [h1, echoesOf_append, h2]; split <;> simp [echoesOf]
        rcases h3 with h3 | ⟨h3, e, h5⟩
        · subst h3
          simp only
          rw [if_neg (by omega), if_neg (by omega)]
          by_cases hn : 0 < n
          · have hn' : (0 : Int) < n := by omega
            rw [dif_pos hn']
            have hl : 0 < b.length := List.length_pos_iff.mpr hb
            obtain ⟨steps, g1, g2, g3⟩ := ih (b.drop n) s1 (by simp only [List.length_drop]; omega) h4
            have hR : Reach (Server.handle rand) b s (b.drop n) s1 := by
              have := Reach.step hh hn' hb
              rwa [Int.toNat_natCast] at this
            refine ⟨(s, b.take n) :: steps, ?_, ?_, ?_⟩
            · intro x hx
              rcases List.mem_cons.1 hx with rfl | hx
              · exact ⟨b.drop n, by rw [List.take_append_drop]; exact .refl _ _⟩
              · obtain ⟨rest, h⟩ := g1 x hx
                exact ⟨rest, hR.trans h⟩
            · simp only [Int.toNat_natCast, List.map_cons, List.flatten_cons, List.append_assoc, g2,
                List.take_append_drop]
            · simp only [Int.toNat_natCast, echoesOf_append, g3, he, hn, and_true, List.filter_cons]
              split <;> simp
          · have hn' : ¬ (0 : Int) < n := by omega
            rw [dif_neg hn']
            refine ⟨[], by simp, by simp, ?_⟩
            rw [he, if_neg (by simp [hn])]; rfl
        · subst h5
          refine ⟨[], by simp, by simp, ?_⟩
          simp only
          rw [he, h3]; rfl
  have h := key _ (c.buf ++ d) c.st (Nat.le_refl _) hc
  have e : Server.dataReceived rand d c = processBuffer (Server.handle rand) (c.buf ++ d) c.st :=
    (C39_overflow maxBufferSize (Server.handle rand) d c).2.2 hf
  rw [e]
  exact h

/-- C53: if the messages are all handled in basic mode, the echo followed by what
is left in the buffer is exactly what was received. -/
theorem C53_basic (rand : Nat → Int) (hr : Server.RandOk rand) (c : Conn Server) (hc : c.st.connected = true)
    (d : Bytes) (hf : c.buf.length + d.length ≤ maxBufferSize)
    (hb : ∀ b s, Reach (Server.handle rand) (c.buf ++ d) c.st b s → s.basic = true) :
    let r := Server.dataReceived rand d c
    (echoesOf r.2.1).flatten ++ r.1.buf = c.buf ++ d := by
  obtain ⟨steps, h1, h2, h3⟩ := C53_stream rand hr c hc d hf
  intro r
  have : steps.filter (·.1.basic) = steps := by
    rw [List.filter_eq_self]
    intro x hx
    obtain ⟨rest, h⟩ := h1 x hx
    exact hb _ _ h
  rw [this] at h3
  rw [h3]
  exact h2

/-- C53: if the messages are all handled in smart mode, nothing is echoed. -/
theorem C53_smart (rand : Nat → Int) (hr : Server.RandOk rand) (c : Conn Server) (hc : c.st.connected = true)
    (d : Bytes) (hf : c.buf.length + d.length ≤ maxBufferSize)
    (hb : ∀ b s, Reach (Server.handle rand) (c.buf ++ d) c.st b s → s.basic = false) :
    echoesOf (Server.dataReceived rand d c).2.1 = [] := by
  obtain ⟨steps, h1, -, h3⟩ := C53_stream rand hr c hc d hf
  have : steps.filter (·.1.basic) = [] := by
    rw [List.filter_eq_nil_iff]
    intro x hx
    obtain ⟨rest, h⟩ := h1 x hx
    simp [hb _ _ h]
  rw [this] at h3
  exact h3

example :
    (Server.dataReceived (fun _ => 1) (ascii "~A3210038h\rA3300059i\r\\053800790149g\r\\0538") ⟨[], { connected := true }⟩).2.1 =
      [.echo (ascii "~"), .event .reset, .echo (ascii "A3210038h\r"), .write (ascii "h."),
       .echo (ascii "A3300059i\r"), .write (ascii "i."), .event (.lightingOn 1), .write (ascii "g.")] := by
  decide +kernel

/-! ## C54 -/

/-- Units 1 to 10 and 253 are present. -/
def present (i : Nat) : Bool := (1 ≤ i && i ≤ 10) || i == 253

/-- The four two-bit states in a byte of a binary status report. -/
def pairsOf (b : UInt8) : List Nat := [b.toNat % 4, b.toNat / 4 % 4, b.toNat / 16 % 4, b.toNat / 64]

/-- The claim: the length field of each block (the low five bits of its first byte) counts the bytes between
it and the checksum. -/
def C54_claim : Prop :=
  ∀ (rand : Nat → Int) (ga : Int) (s : Server), s.connected = true → s.basic = true →
    ∃ m1 m2 m3 : Bytes, ∃ h1 h2 h3 c1 c2 c3 : UInt8, ∃ d1 d2 d3 : Bytes,
      Server.onPacket rand (.pm { app := some 0xff, sals := [.statusRequest false ga 0xff] }) s =
        ({ s with queue := [] },
          [.event (.masterStatus ga), .write (b16encode m1 ++ [0x0d, 0x0a])] ++ s.queue.map .write ++
            [.write (b16encode m2 ++ [0x0d, 0x0a]), .write (b16encode m3 ++ [0x0d, 0x0a])], .ok ()) ∧
      m1 = [h1, 0xff, 0] ++ d1 ++ [c1] ∧ m2 = [h2, 0xff, 88] ++ d2 ++ [c2] ∧ m3 = [h3, 0xff, 176] ++ d3 ++ [c3] ∧
      SumsToZero m1 ∧ SumsToZero m2 ∧ SumsToZero m3 ∧
      h1.toNat % 32 = 2 + d1.length ∧ h2.toNat % 32 = 2 + d2.length ∧ h3.toNat % 32 = 2 + d3.length ∧
      (d1 ++ d2 ++ d3).flatMap pairsOf = (List.range 256).map (fun i => if present i then 1 else 0)

/-- C54, except for the length field: a master application status request in
basic mode makes the simulated PCI send three lines (anything in the send queue
follows the first). Each is the hexadecimal form of bytes that sum to zero, namely
a header, application 0xff, the start of the block, the states, a checksum. The
blocks start at 0, 88 and 176, the first two contain 88 states, and together they
say that units 1 to 10 and 253 are on the network and no others. What is missing:
the length field, see `C54_length`. -/
theorem C54_report_partial (rand : Nat → Int) (ga : Int) (s : Server) (hc : s.connected = true) (hb : s.basic = true) :
    ∃ m1 m2 m3 : Bytes, ∃ h1 h2 h3 c1 c2 c3 : UInt8, ∃ d1 d2 d3 : Bytes,
      Server.onPacket rand (.pm { app := some 0xff, sals := [.statusRequest false ga 0xff] }) s =
        ({ s with queue := [] },
          [.event (.masterStatus ga), .write (b16encode m1 ++ [0x0d, 0x0a])] ++ s.queue.map .write ++
            [.write (b16encode m2 ++ [0x0d, 0x0a]), .write (b16encode m3 ++ [0x0d, 0x0a])], .ok ()) ∧
      m1 = [h1, 0xff, 0] ++ d1 ++ [c1] ∧ m2 = [h2, 0xff, 88] ++ d2 ++ [c2] ∧ m3 = [h3, 0xff, 176] ++ d3 ++ [c3] ∧
      SumsToZero m1 ∧ SumsToZero m2 ∧ SumsToZero m3 ∧
      d1.length = 22 ∧ d2.length = 22 ∧
      (d1 ++ d2 ++ d3).flatMap pairsOf = (List.range 256).map (fun i => if present i then 1 else 0) := by
  refine ⟨[0xd9, 0xff, 0] ++ [0x54, 0x55, 0x15] ++ List.replicate 19 0 ++ [0x6a], [0xd9, 0xff, 88] ++ List.replicate 22 0 ++ [0xd0],
    [0xd7, 0xff, 176] ++ List.replicate 19 0 ++ [0x04, 0x76], 0xd9, 0xd9, 0xd7, 0x6a, 0xd0, 0x76,
    [0x54, 0x55, 0x15] ++ List.replicate 19 0, List.replicate 22 0, List.replicate 19 0 ++ [0x04], ?_, ?_⟩
  · have he : Server.onPacket rand (.pm { app := some 0xff, sals := [.statusRequest false ga 0xff] }) s =
        Proc.andThen (Server.onSals rand [.statusRequest false ga 0xff])
          (fun go => if go then Server.confirm none else pure ()) s := rfl
    have he2 : Server.onSals rand [.statusRequest false ga 0xff] s =
        Proc.andThen (Proc.andThen (Server.onMasterStatus ga) (fun _ => pure true))
          (fun go => if go then Server.onSals rand [] else pure false) s := rfl
    have h1 := Server.onMasterStatus_eq ga s hc hb
    have h2 : Proc.andThen (Server.onMasterStatus ga) (fun _ => pure true) s = _ := andThen_ok h1
    have h3 : Server.onSals rand [.statusRequest false ga 0xff] s = _ := he2.trans (andThen_ok h2)
    rw [he, andThen_ok h3]
    have b1 : Server.block 0 = b16encode ([0xd9, 0xff, 0] ++ [0x54, 0x55, 0x15] ++ List.replicate 19 0 ++ [0x6a]) ++ [0x0d, 0x0a] := by
      decide +kernel
    have b2 : Server.block 0x58 = b16encode ([0xd9, 0xff, 88] ++ List.replicate 22 0 ++ [0xd0]) ++ [0x0d, 0x0a] := by
      decide +kernel
    have b3 : Server.block 0xb0 = b16encode ([0xd7, 0xff, 176] ++ List.replicate 19 0 ++ [0x04, 0x76]) ++ [0x0d, 0x0a] := by
      decide +kernel
    rw [← b1, ← b2, ← b3]
    simp [Server.onSals, Server.confirm, pure]
  · decide +kernel

/-- C54 is false of the code: the length field of each of the three blocks (the
low five bits of the first byte) is one more than the number of bytes between it
and the checksum. -/
theorem C54_length : ∀ x ∈ [0, 88, 176], ∃ h tl c, Server.block x = b16encode (h :: tl ++ [c]) ++ [0x0d, 0x0a] ∧
    h.toNat % 32 = tl.length + 1 := by
  intro x hx
  simp only [List.mem_cons, List.not_mem_nil, or_false] at hx
  rcases hx with rfl | rfl | rfl
  · exact ⟨0xd9, [0xff, 0] ++ [0x54, 0x55, 0x15] ++ List.replicate 19 0, 0x6a, by decide +kernel, by decide +kernel⟩
  · exact ⟨0xd9, [0xff, 88] ++ List.replicate 22 0, 0xd0, by decide +kernel, by decide +kernel⟩
  · exact ⟨0xd7, [0xff, 176] ++ List.replicate 19 0 ++ [0x04], 0x76, by decide +kernel, by decide +kernel⟩

/-- The answer to the request that toolkit software sends. -/
example : Server.onPacket (fun _ => 0) (.pm { app := some 0xff, sals := [.statusRequest false 0 0xff] })
    { connected := true, basic := true, queue := [ascii "05010138007943\r\n"] } =
    ({ connected := true, basic := true },
      [.event (.masterStatus 0), .write (ascii "D9FF00545515000000000000000000000000000000000000006A\r\n"),
        .write (ascii "05010138007943\r\n"),
        .write (ascii "D9FF5800000000000000000000000000000000000000000000D0\r\n"),
        .write (ascii "D7FFB0000000000000000000000000000000000000000476\r\n")], .ok ()) := by decide +kernel

/-- C54 is false of the code. -/
theorem C54_false : ¬ C54_claim := by
  intro h
  obtain ⟨m1, m2, m3, h1, h2, h3, c1, c2, c3, d1, d2, d3, he, e1, -, -, -, -, -, l1, -, -, -⟩ :=
    h (fun _ => 0) 0 { connected := true, basic := true } rfl rfl
  have hb : (Server.onPacket (fun _ => 0) (.pm { app := some 0xff, sals := [.statusRequest false 0 0xff] })
      { connected := true, basic := true }).2.1[1]? = some (.write (b16encode ([0xd9, 0xff, 0] ++ [0x54, 0x55, 0x15] ++
        List.replicate 19 0 ++ [0x6a]) ++ [0x0d, 0x0a])) := by decide +kernel
  rw [he] at hb
  have hw : b16encode m1 ++ [0x0d, 0x0a] = b16encode ([0xd9, 0xff, 0] ++ [0x54, 0x55, 0x15] ++
      List.replicate 19 0 ++ [0x6a]) ++ [0x0d, 0x0a] := by
    simpa using hb
  have hm : m1 = [0xd9, 0xff, 0] ++ [0x54, 0x55, 0x15] ++ List.replicate 19 0 ++ [0x6a] := by
    have h1 := b16decode_b16encode m1
    rw [List.append_inj_left' hw rfl, b16decode_b16encode] at h1
    exact (Except.ok.inj h1).symm
  have hl := congrArg List.length (e1.symm.trans hm)
  have hh : h1 = 0xd9 := by
    have := e1.symm.trans hm
    simp only [List.cons_append, List.cons.injEq] at this
    exact this.1
  simp only [List.length_append, List.length_cons, List.length_nil, List.length_replicate] at hl
  have : (0xd9 : UInt8).toNat % 32 = 25 := by decide
  rw [hh, this] at l1
  omega

/-! ## C58 -/

/-- C58 is false of the code: no level in the documented range (nor any other
float) works, the call raises without any effect. -/
theorem C58_false (src ga duration : Int) (q : Rat) (s : Server) :
    ∃ e, Server.lightingGroupRamp src ga duration (.flt q) s = (s, [], .error e) := by
  have henc : ∃ e, (SAL.lightRamp ga duration (.flt q)).encode = .error e := by
    simp only [SAL.encode, PyNum.toByte, bind, Except.bind, pure, Except.pure, throw, throwThe, MonadExceptOf.throw]
    repeat' split
    all_goals first | exact ⟨_, rfl⟩ | simp_all
  obtain ⟨e, henc⟩ := henc
  have hser : ∀ p, Server.eventPacket s.checksum (.ok (.lightRamp ga duration (.flt q))) src = .ok p →
      Server.serialize p = .error e := by
    intro p hp
    rw [Server.eventPacket_ok, Except.ok.injEq] at hp
    subst hp
    have h38 : mkByte 0x38 = .ok 0x38 := rfl
    simp [Server.serialize, Packet.encodePacket, PM.encode, encodeSals, henc, bind, Except.bind, SAL.application,
      appLighting, h38, pure, Except.pure]
  unfold Server.lightingGroupRamp Server.sendEvent
  cases hk : mkLightRamp ga duration (.flt q) with
  | error e' => exact ⟨e', rfl⟩
  | ok x =>
    have hx : x = .lightRamp ga duration (.flt q) := by
      simp only [mkLightRamp, bind, Except.bind, pure, Except.pure] at hk
      split at hk
      · cases hk
      · injection hk with hk; exact hk.symm
    subst hx
    split
    · exact ⟨_, rfl⟩
    · rename_i p hp
      unfold Server.send
      rw [hser p hp]
      exact ⟨e, rfl⟩

/-- In particular the default. -/
theorem C58_default (src ga duration : Int) (s : Server) :
    ∃ e, (Server.lightingGroupRamp src ga duration) s = (s, [], .error e) := C58_false src ga duration 1 s

/-- C58, the part that holds: integer levels 0 to 255 are sent, with the supported
duration. What is missing: everything documented. -/
theorem C58_integer_partial (src ga duration level : Int) (hs : 1 ≤ src ∧ src ≤ 255) (hg : IsByte ga) (hl : IsByte level)
    (s : Server) (hc : s.connected = true) :
    ∃ w, Server.lightingGroupRamp src ga duration (.int level) s =
        ({ s with queue := [] }, .write (w ++ [0x0d, 0x0a]) :: s.queue.map .write, .ok ()) ∧
      ∀ (rest : Bytes) (strict : Bool), decodePacket (w ++ 0x0d :: 0x0a :: rest) s.checksum strict true =
        .ok (some (.pm { checksum := s.checksum, app := some 0x38, sals := [.lightRamp ga (quantise duration) (.int level)],
                         src := some src }), w.length + 2) := by
  have hk : mkLightRamp ga duration (.int level) = .ok (.lightRamp ga duration (.int level)) := by
    simp [mkLightRamp, checkGa_byte hg, bind, Except.bind, pure, Except.pure]
  have hok := Server.eventPm_ok s.checksum (.lightRamp ga duration (.int level)) src ⟨hg, hl⟩ rfl
  obtain ⟨w, h1, h2⟩ := C26_event _ hok src rfl hs
  refine ⟨w, ?_, ?_⟩
  · unfold Server.lightingGroupRamp Server.sendEvent
    rw [hk, Server.eventPacket_ok]
    exact Server.send_eq (Server.serialize_pm h1) s hc
  · exact h2

example : (Server.lightingGroupRamp 5 1 4 (.int 128) { connected := true, checksum := true }).2 =
      ([.write (ascii "050538000A018033\r\n")], .ok ()) := by decide +kernel

end CBus.Props
