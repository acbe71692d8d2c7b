import Verif.Props.Client
import Verif.Spec.Session

/-! # C47, C48, C73: events, clock requests and time synchronisation -/

namespace CBus.Props
open CBus CBus.Spec

variable {π : Type}

/-! ## C47 -/

/-- The handler calls made, in order. -/
def eventsOf (o : List (Eff π)) : List Event :=
  o.filterMap fun e => match e with
    | .event x => some x
    | _ => none

/-- The writes, in order. -/
def writesOf (o : List (Eff π)) : List Bytes :=
  o.filterMap fun e => match e with
    | .write w => some w
    | _ => none

theorem eventsOf_append (a b : List (Eff π)) : eventsOf (a ++ b) = eventsOf a ++ eventsOf b := by simp [eventsOf]
theorem writesOf_append (a b : List (Eff π)) : writesOf (a ++ b) = writesOf a ++ writesOf b := by simp [writesOf]

/-- Handlers that do not themselves call handlers. -/
def Quiet (hook : Event → Proc Client (Eff π) Unit) : Prop := ∀ e s, eventsOf (hook e s).2.1 = []

theorem call_events {hook : Event → Proc Client (Eff π) Unit} (hq : Quiet hook) (e : Event) (s : Client) :
    eventsOf (Client.call hook e s).2.1 = [e] := by
  have := hq e s
  unfold Client.call Proc.andThen Proc.emit
  simp only
  rw [eventsOf_append, this]; rfl

theorem onSal_events {hook : Event → Proc Client (Eff π) Unit} (hq : Quiet hook) (src : Option Int) (x : SAL)
    (s : Client) : eventsOf (Client.onSal hook src x s).2.1 = (salEvent src x).toList := by
  cases x <;> first | exact call_events hq _ _ | rfl

theorem onSals_events {hook : Event → Proc Client (Eff π) Unit} (hq : Quiet hook) (src : Option Int) :
    ∀ (l : List SAL) (s : Client),
      eventsOf (Client.onSals hook src l s).2.1 <+: l.filterMap (salEvent src) ∧
      ((Client.onSals hook src l s).2.2 = .ok () →
        eventsOf (Client.onSals hook src l s).2.1 = l.filterMap (salEvent src)) := by
  intro l
  induction l with
  | nil => intro s; exact ⟨List.prefix_refl _, fun _ => rfl⟩
  | cons x l ih =>
    intro s
    have h1 := onSal_events hq src x s
    have hcons : (x :: l).filterMap (salEvent src) = (salEvent src x).toList ++ l.filterMap (salEvent src) := by
      cases h : salEvent src x <;> simp [h]
    rw [hcons]
    simp only [Client.onSals, Proc.andThen]
    split
    · rename_i s1 o1 e he
      rw [he] at h1
      simp only at h1 ⊢
      rw [h1]
      exact ⟨List.prefix_append _ _, by simp⟩
    · rename_i s1 o1 a he
      rw [he] at h1
      simp only at h1 ⊢
      rw [eventsOf_append, h1]
      obtain ⟨g1, g2⟩ := ih s1
      exact ⟨(List.prefix_append_right_inj _).2 g1, fun h => by rw [g2 h]⟩

/-- C47: whatever the handlers do, a packet causes the handler calls it should,
in order, up to the first handler that raises; if none raises, all of them. -/
theorem C47_packet {hook : Event → Proc Client (Eff π) Unit} (hq : Quiet hook) (p : Packet) (s : Client) :
    eventsOf (Client.onPacket hook p s).2.1 <+: packetEvents p ∧
    ((Client.onPacket hook p s).2.2 = .ok () → eventsOf (Client.onPacket hook p s).2.1 = packetEvents p) := by
  cases p with
  | pm q => exact onSals_events hq q.src q.sals s
  | confirmation c ok =>
    have := call_events hq (.confirmation c ok) s
    refine ⟨?_, fun _ => this⟩
    show eventsOf (Client.call hook _ s).2.1 <+: _
    rw [this]; exact List.prefix_refl _
  | pciError =>
    have := call_events hq .cannotAcceptData s
    refine ⟨?_, fun _ => this⟩
    show eventsOf (Client.call hook _ s).2.1 <+: _
    rw [this]; exact List.prefix_refl _
  | _ => exact ⟨List.prefix_refl _, fun _ => rfl⟩

theorem clockNow_run (now : Nat → PyDateTime) (hnow : ∀ n, DateTimeOk (now n)) (s : Client)
    (hc : s.connected = true) (c : UInt8) (hk : confirmationCodes[s.nextConf]? = some c) :
    Client.clockDatetime (π := π) now none s =
      ({ s with nextConf := (s.nextConf + 1) % 20, clockReads := s.clockReads + 1 },
       [.write (0x5c :: b16encode (addChecksum (ClientCall.clockNow.frame (now s.clockReads) PyDate.weekday)) ++
         [c, 0x0d])], .ok (some c)) :=
  run_ok now PyDate.weekday (fun d hd => isWeekday_weekday d hd) hnow .clockNow trivial trivial s hc c hk

theorem send_quiet (p : Packet) (b : Bool) (s : Client) : eventsOf (Client.send (π := π) p b s).2.1 = [] := by
  unfold Client.send Proc.andThen Client.getConfirmationCode
  repeat' split
  all_goals first | rfl | (simp_all; done) | skip
  all_goals (rename_i h; split at h <;> simp_all [eventsOf])

theorem sendSals_quiet (x : Py (List SAL)) (s : Client) : eventsOf (Client.sendSals (π := π) x s).2.1 = [] := by
  unfold Client.sendSals
  repeat' split
  all_goals first | rfl | exact send_quiet _ _ _

theorem clockDatetime_quiet (now : Nat → PyDateTime) (w : Option PyDateTime) (s : Client) :
    eventsOf (Client.clockDatetime (π := π) now w s).2.1 = [] := by
  unfold Client.clockDatetime
  split <;> exact sendSals_quiet _ _

theorem baseHook_quiet (now : Nat → PyDateTime) : Quiet (Client.baseHook (π := π) now) := by
  intro e s
  unfold Client.baseHook
  split
  · split
    · have := clockDatetime_quiet (π := π) now none s
      unfold Proc.andThen
      split
      · rename_i he; rw [he] at this; exact this
      · rename_i he
        rw [he] at this
        simp only [pure, List.append_nil]
        exact this
    · rfl
  · rfl

/-- A connected client with a valid code counter. -/
def Up (s : Client) : Prop := s.connected = true ∧ s.nextConf < 20

/-- Whether a SAL makes this client answer. -/
def isRequest : SAL → Bool
  | .clockRequest => true
  | _ => false

/-- The clock update number `i` from now on of the client `s`. -/
def clockLine (now : Nat → PyDateTime) (s : Client) (i : Nat) : Bytes :=
  0x5c :: b16encode (addChecksum (ClientCall.clockNow.frame (now (s.clockReads + i)) PyDate.weekday)) ++
    cycleFrom (s.nextConf + i) 1 ++ [0x0d]

/-- The state after `n` clock updates. -/
def afterClock (s : Client) (n : Nat) : Client :=
  { s with nextConf := (s.nextConf + n) % 20, clockReads := s.clockReads + n }

theorem code_cycle {k : Nat} (hk : k < 20) :
    ∃ c, confirmationCodes[k]? = some c ∧ cycleFrom k 1 = [c] := by
  have key : ∀ k : Fin 20, ∃ c ∈ confirmationCodes, confirmationCodes[k.1]? = some c ∧ cycleFrom k.1 1 = [c] := by
    decide +kernel
  obtain ⟨c, -, h⟩ := key ⟨k, hk⟩
  exact ⟨c, h⟩

theorem clockLine_zero (now : Nat → PyDateTime) (s : Client) (c : UInt8) (hc : cycleFrom s.nextConf 1 = [c]) :
    clockLine now s 0 = 0x5c :: b16encode (addChecksum (ClientCall.clockNow.frame (now s.clockReads) PyDate.weekday)) ++
      [c, 0x0d] := by
  unfold clockLine
  simp [hc]

theorem cycleFrom_mod (k n : Nat) : cycleFrom (k % 20) n = cycleFrom k n := by
  unfold cycleFrom
  apply List.map_congr_left
  intro j _
  congr 1
  omega

theorem clockLine_shift (now : Nat → PyDateTime) (s : Client) (m i : Nat) :
    clockLine now (afterClock s m) i = clockLine now s (m + i) := by
  unfold clockLine afterClock
  simp only [Nat.add_assoc]
  have : cycleFrom ((s.nextConf + m) % 20 + i) 1 = cycleFrom (s.nextConf + (m + i)) 1 := by
    rw [← cycleFrom_mod, ← cycleFrom_mod (s.nextConf + (m + i))]
    congr 1; omega
  rw [this]

/-- The base handlers, one SAL. -/
theorem base_onSal (now : Nat → PyDateTime) (hnow : ∀ n, DateTimeOk (now n)) (src : Option Int) (x : SAL)
    (s : Client) (hu : Up s) :
    let n := if isRequest x && s.handleClock then 1 else 0
    ∃ o, Client.onSal (π := π) (Client.baseHook now) src x s = (afterClock s n, o, .ok ()) ∧
      writesOf o = (List.range n).map (clockLine now s) := by
  obtain ⟨hc, hk⟩ := hu
  have h0 : afterClock s 0 = s := by
    have : s.nextConf % 20 = s.nextConf := by omega
    simp only [afterClock, Nat.add_zero, this]
  cases x with
  | clockRequest =>
    obtain ⟨c, h1, h2⟩ := code_cycle hk
    by_cases hh : s.handleClock = true
    · simp only [isRequest, hh, Bool.and_true, if_true]
      refine ⟨[.event (.clockRequest src), .write (clockLine now s 0)], ?_, ?_⟩
      · simp only [Client.onSal, Client.call, Client.baseHook, Proc.andThen, Proc.emit, hh, if_true,
          clockNow_run now hnow s hc c h1, pure, clockLine_zero now s c h2, afterClock]
        rfl
      · rfl
    · simp only [Bool.not_eq_true] at hh
      simp only [isRequest, hh, Bool.and_false, Bool.false_eq_true, if_false, h0]
      refine ⟨[.event (.clockRequest src)], ?_, rfl⟩
      simp [Client.onSal, Client.call, Client.baseHook, Proc.andThen, Proc.emit, hh]
  | temperature _ _ => exact ⟨[], by simp only [isRequest, Bool.false_and, Bool.false_eq_true, if_false, h0]; rfl, rfl⟩
  | enableSet _ _ => exact ⟨[], by simp only [isRequest, Bool.false_and, Bool.false_eq_true, if_false, h0]; rfl, rfl⟩
  | statusRequest _ _ _ => exact ⟨[], by simp only [isRequest, Bool.false_and, Bool.false_eq_true, if_false, h0]; rfl, rfl⟩
  | _ => exact ⟨[.event _], by simp only [isRequest, Bool.false_and, Bool.false_eq_true, if_false, h0]; rfl, rfl⟩

theorem base_onSals (now : Nat → PyDateTime) (hnow : ∀ n, DateTimeOk (now n)) (src : Option Int) :
    ∀ (l : List SAL) (s : Client), Up s →
    let n := if s.handleClock then l.countP isRequest else 0
    ∃ o, Client.onSals (π := π) (Client.baseHook now) src l s = (afterClock s n, o, .ok ()) ∧
      writesOf o = (List.range n).map (clockLine now s) := by
  intro l
  induction l with
  | nil =>
    intro s hu
    refine ⟨[], ?_, ?_⟩
    · have : (s.nextConf + 0) % 20 = s.nextConf := by have := hu.2; omega
      by_cases hh : s.handleClock = true <;> simp [hh, Client.onSals, afterClock, pure] <;>
        (have := hu.2; cases s; simp_all; omega)
    · by_cases hh : s.handleClock = true <;> simp [hh, writesOf]
  | cons x l ih =>
    intro s hu
    obtain ⟨o1, e1, w1⟩ := base_onSal (π := π) now hnow src x s hu
    generalize hn1 : (if isRequest x && s.handleClock then 1 else 0) = n1 at e1 w1
    obtain ⟨o2, e2, w2⟩ := ih (afterClock s n1) ⟨hu.1, by unfold afterClock; simp only; omega⟩
    have hh : (afterClock s n1).handleClock = s.handleClock := rfl
    rw [hh] at e2 w2
    generalize hn2 : (if s.handleClock then l.countP isRequest else 0) = n2 at e2 w2
    have hn : (if s.handleClock then (x :: l).countP isRequest else 0) = n1 + n2 := by
      rw [← hn1, ← hn2, List.countP_cons]
      by_cases a : s.handleClock = true <;> by_cases b : isRequest x = true <;> simp [a, b] <;> omega
    simp only [hn]
    refine ⟨o1 ++ o2, ?_, ?_⟩
    · simp only [Client.onSals, Proc.andThen, e1, e2]
      unfold afterClock
      simp only [Nat.add_assoc]
      congr 2
      omega
    · rw [writesOf_append, w1, w2, List.range_add, List.map_append, List.map_map]
      congr 1
      apply List.map_congr_left
      intro i _
      simp only [Function.comp, clockLine_shift]

/-! ## C48 -/

/-- C48: receiving a packet, a connected client writes exactly one clock update
per clock request in it if `handle_clock_requests` is set, carrying the time of
the answer, and nothing otherwise. -/
theorem C48_answers (now : Nat → PyDateTime) (hnow : ∀ n, DateTimeOk (now n)) (p : Packet) (s : Client) (hu : Up s) :
    let n := match p with
      | .pm q => if s.handleClock then q.sals.countP (fun x => decide (x = .clockRequest)) else 0
      | _ => 0
    writesOf (Client.onPacket (π := π) (Client.baseHook now) p s).2.1 = (List.range n).map (clockLine now s) ∧
    (Client.onPacket (π := π) (Client.baseHook now) p s).2.2 = .ok () := by
  have hp : (fun x : SAL => decide (x = .clockRequest)) = isRequest := by
    funext x; cases x <;> simp [isRequest]
  cases p with
  | pm q =>
    intro n
    have hn : n = if s.handleClock then q.sals.countP isRequest else 0 := by rw [← hp]
    obtain ⟨o, h1, h2⟩ := base_onSals (π := π) now hnow q.src q.sals s hu
    rw [← hn] at h1 h2
    have e : Client.onPacket (π := π) (Client.baseHook now) (.pm q) s =
      Client.onSals (Client.baseHook now) q.src q.sals s := rfl
    rw [e, h1]
    exact ⟨h2, rfl⟩
  | _ => exact ⟨rfl, rfl⟩

theorem clock_pmOk (t : PyDateTime) (ht : DateTimeOk t) :
    PmOk { app := some appClock, sals := clockUpdateSal t } := by
  refine ⟨by decide, ?_⟩
  intro x hx
  simp only [clockUpdateSal, List.mem_cons, List.not_mem_nil, or_false] at hx
  rcases hx with rfl | rfl
  · exact ⟨ht.1, rfl⟩
  · exact ⟨ht.2, rfl⟩

/-- C48: each of these lines is a command that a PCI in checksum mode decodes to
a clock packet with exactly a date update and a time update, for the time of the
answer. -/
theorem C48_decodes (now : Nat → PyDateTime) (hnow : ∀ n, DateTimeOk (now n)) (s : Client) (i : Nat) (rest : Bytes)
    (hk : s.nextConf < 20) :
    ∃ p : PM, decodePacket (clockLine now s i ++ rest) true true false = .ok (some (.pm p), (clockLine now s i).length) ∧
      p.app = some 0xdf ∧ p.conf.toList = cycleFrom (s.nextConf + i) 1 ∧
      p.sals = [.clockUpdate (.date (now (s.clockReads + i)).date),
        .clockUpdate (.time { (now (s.clockReads + i)).time with microsecond := 0 })] := by
  obtain ⟨c, -, h2⟩ := code_cycle (show (s.nextConf + i) % 20 < 20 by omega)
  rw [cycleFrom_mod] at h2
  have hm : c ∈ confirmationCodes := by
    have key : ∀ k : Fin 20, ∀ c ∈ cycleFrom k.1 1, c ∈ confirmationCodes := by decide +kernel
    exact key ⟨(s.nextConf + i) % 20, by omega⟩ c (by simp only [cycleFrom_mod]; rw [h2]; simp)
  have ht := hnow (s.clockReads + i)
  obtain ⟨w, e1, e2⟩ := C25_command _ (clock_pmOk _ ht) rfl
  rw [pm_encodePacket appClock 0xdf _ _ (by decide) (clock_encode _ ht)] at e1
  simp only [Except.ok.injEq] at e1
  have hl : clockLine now s i = 0x5c :: w ++ [c, 0x0d] := by
    unfold clockLine
    rw [h2, ← e1]
    simp [ClientCall.frame]
  have := e2 (some c) rest true (by simp [hm])
  simp only [Option.toList, List.append_assoc, List.cons_append, List.nil_append] at this
  refine ⟨{ app := some appClock, sals := (clockUpdateSal (now (s.clockReads + i))).map received, conf := some c },
    ?_, rfl, by simp [h2], rfl⟩
  rw [hl]
  simp only [List.append_assoc, List.cons_append, List.nil_append]
  rw [this]
  congr 3
  simp; omega


example : (Client.dataReceived (π := Empty) (Client.baseHook fun _ => ⟨⟨2024, 2, 29⟩, ⟨12, 34, 56, 0⟩⟩)
      (ascii "0505DF00110303\r\n") ⟨[], { connected := true }⟩).2.1 =
    [.event (.clockRequest (some 5)), .write (ascii "\\05DF000E0207E8021D030D010C2238FF88h\r")] ∧
  (Client.dataReceived (π := Empty) (Client.baseHook fun _ => ⟨⟨2024, 2, 29⟩, ⟨12, 34, 56, 0⟩⟩)
      (ascii "0505DF00110303\r\n") ⟨[], { connected := true, handleClock := false }⟩).2.1 =
    [.event (.clockRequest (some 5))] := by decide +kernel

/-! ## C47, on streams -/

/-- The line with which a PCI reports a packet from the network. -/
def EventLine (p : PM) (l : Bytes) : Prop :=
  PmOk p ∧ p.checksum = true ∧ (∃ a, p.src = some a ∧ 1 ≤ a ∧ a ≤ 255) ∧
  ∃ w, (Packet.pm p).encodePacket = .ok w ∧ l = w ++ [0x0d, 0x0a]

theorem eventLine_lineFor {p : PM} {l : Bytes} (h : EventLine p l) :
    LineFor l (.pm { p with sals := p.sals.map received, conf := none }) := by
  obtain ⟨h1, h2, ⟨a, h3, h4⟩, w, h5, rfl⟩ := h
  obtain ⟨w', e1, e2⟩ := C26_event p h1 a h3 h4
  rw [h5] at e1
  simp only [Except.ok.injEq] at e1
  subst e1
  refine ⟨by simp, fun rest => ?_⟩
  have := e2 rest true
  rw [h2] at this
  simp only [List.append_assoc, List.cons_append, List.nil_append, this]
  simp [h2]

theorem runPackets_base (now : Nat → PyDateTime) (hnow : ∀ n, DateTimeOk (now n)) :
    ∀ (ps : List Packet) (s : Client), Up s →
    ∃ s' o, runPackets (Client.onPacket (π := π) (Client.baseHook now)) ps s = (s', o, .ok ()) ∧ Up s' ∧
      eventsOf o = ps.flatMap packetEvents := by
  intro ps
  induction ps with
  | nil => intro s hu; exact ⟨s, [], rfl, hu, rfl⟩
  | cons p ps ih =>
    intro s hu
    have h1 := (C48_answers (π := π) now hnow p s hu).2
    have h2 := (C47_packet (π := π) (baseHook_quiet now) p s).2 h1
    have h3 : Up (Client.onPacket (π := π) (Client.baseHook now) p s).1 := by
      cases p with
      | pm q =>
        obtain ⟨o, h1, -⟩ := base_onSals (π := π) now hnow q.src q.sals s hu
        have e : Client.onPacket (π := π) (Client.baseHook now) (.pm q) s =
          Client.onSals (Client.baseHook now) q.src q.sals s := rfl
        rw [e, h1]
        refine ⟨hu.1, ?_⟩
        unfold afterClock; simp only; omega
      | _ => exact hu
    generalize hr : Client.onPacket (π := π) (Client.baseHook now) p s = r at h1 h2 h3
    obtain ⟨s1, o1, r1⟩ := r
    simp only at h1 h2 h3
    subst h1
    obtain ⟨s', o, g1, g2, g3⟩ := ih s1 h3
    refine ⟨s', o1 ++ o, ?_, g2, ?_⟩
    · simp only [runPackets, Proc.andThen, hr, g1]
    · rw [eventsOf_append, h2, g3]; rfl

/-- C47: a connected client that receives reports from the PCI, chopped into any
chunks its buffer can hold, calls the handlers for exactly the commands in them,
in order, with the values and the source address on the wire. -/
theorem C47_stream (now : Nat → PyDateTime) (hnow : ∀ n, DateTimeOk (now n)) (s : Client) (hu : Up s)
    (items : List (PM × Bytes)) (hi : ∀ i ∈ items, EventLine i.1 i.2) (chunks : List Bytes)
    (hc : chunks.flatten = (items.map (·.2)).flatten)
    (hf : Fits maxBufferSize (Client.handle (π := π) (Client.baseHook now)) chunks ⟨[], s⟩) :
    let r := feed maxBufferSize (Client.handle (π := π) (Client.baseHook now)) chunks ⟨[], s⟩
    r.2.2 = .ok () ∧ r.1.buf = [] ∧
    eventsOf r.2.1 = items.flatMap fun i => (i.1.sals.map received).filterMap (salEvent i.1.src) := by
  let its : List (Bytes × Packet) :=
    items.map fun i => (i.2, Packet.pm { i.1 with sals := i.1.sals.map received, conf := none })
  obtain ⟨s', o, h1, -, h3⟩ := runPackets_base (π := π) now hnow (its.map (·.2)) s hu
  have := Client.feed_lines (Client.baseHook now) its chunks s s' o (by
    intro i hi'
    simp only [its, List.mem_map] at hi'
    obtain ⟨j, hj, rfl⟩ := hi'
    exact eventLine_lineFor (hi j hj)) h1 (by rw [hc]; simp [its, Function.comp_def]) hf
  simp only
  rw [this]
  refine ⟨rfl, rfl, ?_⟩
  simp only [h3, its, List.map_map, List.flatMap_map]
  rfl

example : EventLine { app := some 0x38, src := some 5, sals := [.lightOn 1, .lightRamp 2 5 (.int 128)] }
    (ascii "050538007901120280B0\r\n") := by
  refine ⟨by decide, rfl, ⟨5, rfl, by decide⟩, ascii "050538007901120280B0", by decide +kernel, by decide +kernel⟩

example :
    (feed maxBufferSize (Client.handle (π := Empty) (Client.baseHook fun _ => ⟨⟨2024, 2, 29⟩, ⟨12, 34, 56, 0⟩⟩))
      [ascii "05053800790", ascii "1120280B0\r", ascii "\n0506380009", ascii "03B1\r\n"] ⟨[], { connected := true }⟩).2 =
    ([.event (.lightingOn (some 5) 1), .event (.lightingRamp (some 5) 2 8 (.int 128)),
      .event (.lightingTerminate (some 6) 3)], .ok ()) := by decide +kernel

/-! ## C73 -/

/-- A line that carries a clock update: point to multipoint, application DF. -/
def isClockLine (w : Bytes) : Bool := (ascii "\\05DF00").isPrefixOf w

/-- What concerns time synchronisation: clock updates (`none`) and waits. -/
def ticksOf (o : List (Eff π)) : List (Option Int) :=
  o.filterMap fun e => match e with
    | .write w => if isClockLine w then some none else none
    | .sleep n => some (some n)
    | _ => none

theorem ticksOf_append (a b : List (Eff π)) : ticksOf (a ++ b) = ticksOf a ++ ticksOf b := by simp [ticksOf]

/-- Something else the program does with the object while the task waits: it
does not raise into the task, stays connected and sends no clock updates. -/
def Harmless (m : Proc Client (Eff π) Unit) : Prop :=
  ∀ s, Up s → Up (m s).1 ∧ (m s).1.timesync = s.timesync ∧ ticksOf (m s).2.1 = [] ∧ (m s).2.2 = .ok ()

theorem isClockLine_frame (t : PyDateTime) (c : UInt8) :
    isClockLine (0x5c :: b16encode (addChecksum (ClientCall.clockNow.frame t PyDate.weekday)) ++ [c, 0x0d]) = true := by
  have h : ascii "\\05DF00" = [0x5c, 0x30, 0x35, 0x44, 0x46, 0x30, 0x30] := by decide +kernel
  unfold isClockLine
  rw [h]
  rfl

theorem ticks_clock (t : PyDateTime) (c : UInt8) (l : List (Eff π)) :
    ticksOf (.write (0x5c :: b16encode (addChecksum (ClientCall.clockNow.frame t PyDate.weekday)) ++ [c, 0x0d]) :: l) =
      none :: ticksOf l := by
  simp only [ticksOf, List.filterMap_cons, isClockLine_frame, if_true]

theorem timesync_loop (now : Nat → PyDateTime) (hnow : ∀ n, DateTimeOk (now n)) (f : Int) :
    ∀ (others : List (Proc Client (Eff π) Unit)) (s : Client), Up s → (∀ m ∈ others, Harmless m) →
    ticksOf (Client.timesyncLoop now f others s).2.1 = (List.replicate (others.length + 1) [none, some f]).flatten ∧
    (Client.timesyncLoop now f others s).2.2 = .ok () := by
  intro others
  induction others with
  | nil =>
    intro s hu _
    obtain ⟨c, h1, -⟩ := code_at hu.2
    simp only [Client.timesyncLoop, Proc.andThen, clockNow_run now hnow s hu.1 c h1, Proc.emit]
    refine ⟨?_, trivial⟩
    simp only [List.singleton_append, ticks_clock]
    rfl
  | cons m others ih =>
    intro s hu hm
    obtain ⟨c, h1, -⟩ := code_at hu.2
    simp only [Client.timesyncLoop, Proc.andThen, clockNow_run now hnow s hu.1 c h1, Proc.emit]
    have hu1 : Up { s with nextConf := (s.nextConf + 1) % 20, clockReads := s.clockReads + 1 } :=
      ⟨hu.1, by simp only; omega⟩
    generalize ({ s with nextConf := (s.nextConf + 1) % 20, clockReads := s.clockReads + 1 } : Client) = s1 at hu1 ⊢
    obtain ⟨g1, -, g2, g3⟩ := hm m (by simp) s1 hu1
    generalize m s1 = r at g1 g2 g3
    obtain ⟨s2, o2, r2⟩ := r
    simp only at g1 g2 g3
    subst g3
    simp only
    obtain ⟨i1, i2⟩ := ih s2 g1 (fun m' h => hm m' (by simp [h]))
    refine ⟨?_, i2⟩
    simp only [ticksOf_append, g2, i1, List.nil_append, ticks_clock]
    rfl

/-- C73: with a positive `timesync_frequency` the task sends one clock update
immediately and one after every completed wait, for as long as it runs and
whatever else the program sends meanwhile. -/
theorem C73_periodic (now : Nat → PyDateTime) (hnow : ∀ n, DateTimeOk (now n)) (s : Client) (hu : Up s)
    (hf : 0 < s.timesync) (others : List (Proc Client (Eff π) Unit)) (hm : ∀ m ∈ others, Harmless m) :
    ticksOf (Client.timesyncTask now others s).2.1 =
      (List.replicate (others.length + 1) [none, some s.timesync]).flatten ∧
    (Client.timesyncTask now others s).2.2 = .ok () := by
  unfold Client.timesyncTask
  rw [if_neg (by omega)]
  exact timesync_loop now hnow _ others s hu hm

/-- C73: otherwise it does nothing at all. -/
theorem C73_disabled (now : Nat → PyDateTime) (s : Client) (hf : s.timesync ≤ 0)
    (others : List (Proc Client (Eff π) Unit)) : Client.timesyncTask now others s = (s, [], .ok ()) := by
  unfold Client.timesyncTask
  rw [if_pos hf]

/-- C73: and after the connection is lost it stops with an `IOError`, without
sending anything. -/
theorem C73_disconnected (now : Nat → PyDateTime) (hnow : ∀ n, DateTimeOk (now n)) (f : Int)
    (others : List (Proc Client (Eff π) Unit)) (s : Client) (hc : s.connected = false) :
    (Client.timesyncLoop now f others s).2 = ([], .error .ioError) := by
  have h := (clock_run (π := π) (now s.clockReads) (hnow _) { s with clockReads := s.clockReads + 1 }).2 hc
  have h' : Client.clockDatetime (π := π) now none s = ({ s with clockReads := s.clockReads + 1 }, [], .error .ioError) := h
  cases others <;> simp [Client.timesyncLoop, Proc.andThen, h']

/-- An accepted lighting call between two updates is harmless. -/
example (now : Nat → PyDateTime) : Harmless (π := π) (fun s =>
    Proc.andThen (Client.lightingGroupOn [1]) (fun _ => pure ()) s) := by
  intro s hu
  obtain ⟨c, h1, -⟩ := code_at hu.2
  have := listCall_on.run_ok (π := π) [1] (by decide) (by decide) (by decide) s hu.1 c h1
  have e : Client.lightingGroupOn (π := π) [1] s = Client.lightingMany mkLightOn [1] s := rfl
  simp only [Proc.andThen, e, this, pure]
  refine ⟨⟨hu.1, by simp only; omega⟩, trivial, ?_, trivial⟩
  rfl

example : (Client.timesyncTask (π := Empty) (fun n => ⟨⟨2024, 2, 29⟩, ⟨12, 34, n, 0⟩⟩)
    [fun s => Proc.andThen (Client.lightingGroupOn [1]) (fun _ => pure ()) s]
    { connected := true, timesync := 300 }).2.1 =
    [.write (ascii "\\05DF000E0207E8021D030D010C2200FFC0h\r"), .sleep 300, .write (ascii "\\053800790149i\r"),
     .write (ascii "\\05DF000E0207E8021D030D010C2201FFBFj\r"), .sleep 300] := by decide +kernel

end CBus.Props
