import Verif.Lemmas.Run
import Verif.Props.Server
import Verif.Props.ClientEvents

/-! # C55 – C57: a client and a simulated PCI -/

namespace CBus.Props
open CBus CBus.Spec

variable {π : Type}

/-! ## What the client sends -/

/-- The commands in a call. -/
def callSals (now : PyDateTime) : ClientCall → List SAL
  | .on g => g.map .lightOn
  | .off g => g.map .lightOff
  | .terminate g => g.map .lightTerminate
  | .ramp g d l => [.lightRamp g d l]
  | .clock t => clockUpdateSal t
  | .clockNow => clockUpdateSal now
  | .identify _ _ => []

/-- Everything but `identify`. -/
def IsBroadcast : ClientCall → Prop
  | .identify _ _ => False
  | _ => True

instance (c : ClientCall) : Decidable (IsBroadcast c) := by cases c <;> (unfold IsBroadcast; infer_instance)

theorem call_packet (now : PyDateTime) (hnow : DateTimeOk now) (wd : PyDate → Nat)
    (hwd : ∀ d : PyDate, d.Valid → IsWeekday d (wd d)) (call : ClientCall) (hb : IsBroadcast call) (hok : call.Ok)
    (ht : call.TimeOk) :
    ∃ app, PmOk { app := some app, sals := callSals now call } ∧
      (Packet.pm { app := some app, sals := callSals now call }).encodePacket =
        .ok (b16encode (addChecksum (call.frame now wd))) ∧
      (call.frame now wd).length ≤ 21 := by
  have lst : ∀ (mk : Int → Py SAL) (sal : Int → SAL) (code : UInt8) (gas : List Int), ListCall mk sal code →
      (∀ g, IsByte g → SalOk (sal g)) → gas.length ≤ 9 → (∀ g ∈ gas, IsByte g) →
      PmOk { app := some appLighting, sals := gas.map sal } ∧
      (Packet.pm { app := some appLighting, sals := gas.map sal }).encodePacket =
        .ok (b16encode (addChecksum ([0x05, 0x38, 0x00] ++ gas.flatMap fun a => [code, byteOf a]))) ∧
      ([0x05, 0x38, 0x00] ++ gas.flatMap fun a => [code, byteOf a]).length ≤ 21 := by
    intro mk sal code gas hL hs h9 hg
    refine ⟨⟨rfl, ?_⟩, pm_encodePacket appLighting 0x38 _ _ (by decide) (hL.encode gas hg), ?_⟩
    · intro x hx
      obtain ⟨y, hy, rfl⟩ := List.mem_map.1 hx
      exact ⟨hs y (hg y hy), hL.app y⟩
    · have : (gas.flatMap fun a => [code, byteOf a]).length = 2 * gas.length := by
        clear h9 hg
        induction gas with
        | nil => rfl
        | cons g gs ih => simp only [List.flatMap_cons, List.length_append, ih, List.length_cons, List.length_nil]; omega
      simp only [List.length_append, this, List.length_cons, List.length_nil]; omega
  have clk : ∀ t : PyDateTime, DateTimeOk t → PmOk { app := some appClock, sals := clockUpdateSal t } ∧
      (Packet.pm { app := some appClock, sals := clockUpdateSal t }).encodePacket =
        .ok (b16encode (addChecksum ([0x05, 0xdf, 0x00] ++ clockBytes t (wd t.date)))) ∧
      ([0x05, 0xdf, 0x00] ++ clockBytes t (wd t.date)).length ≤ 21 := by
    intro t ht
    refine ⟨⟨rfl, ?_⟩, ?_, by simp [clockBytes]⟩
    · intro x hx
      simp only [clockUpdateSal, List.mem_cons, List.not_mem_nil, or_false] at hx
      rcases hx with rfl | rfl
      · exact ⟨ht.1, rfl⟩
      · exact ⟨ht.2, rfl⟩
    · rw [weekday_spec hwd t.date ht.1]
      exact pm_encodePacket appClock 0xdf _ _ (by decide) (clock_encode t ht)
  cases call with
  | on g => exact ⟨_, lst _ _ _ g listCall_on (fun _ h => h) hok.2.1 hok.2.2⟩
  | off g => exact ⟨_, lst _ _ _ g listCall_off (fun _ h => h) hok.2.1 hok.2.2⟩
  | terminate g => exact ⟨_, lst _ _ _ g listCall_terminate (fun _ h => h) hok.2.1 hok.2.2⟩
  | ramp g d l =>
    refine ⟨appLighting, ⟨rfl, ?_⟩, ?_, by simp [ClientCall.frame]⟩
    · intro x hx
      simp only [callSals, List.mem_singleton] at hx
      subst hx
      exact ⟨hok, rfl⟩
    · have h2 := ramp_encode g d l hok.1 hok.2
      have he := pm_encodePacket appLighting 0x38 [SAL.lightRamp g d l] _ (by decide)
        (by simp [encodeSals, h2, bind, Except.bind, pure, Except.pure]; rfl)
      rw [callSals, he]
      rfl
  | clock t => exact ⟨_, clk t ht⟩
  | clockNow => exact ⟨_, clk now hnow⟩
  | identify u a => exact absurd hb id

/-! ## What the server does with it -/

/-- The event handler calls, in order. -/
def sEventsOf (o : List SEff) : List SEvent :=
  o.filterMap fun e => match e with
    | .event x => some x
    | _ => none

theorem sEventsOf_append (a b : List SEff) : sEventsOf (a ++ b) = sEventsOf a ++ sEventsOf b := by simp [sEventsOf]

theorem sEventsOf_map_write (q : List Bytes) : sEventsOf (q.map .write) = [] := by
  induction q with
  | nil => rfl
  | cons w q ih => exact ih

/-- All the bytes a server puts on the wire. -/
def wireOf (o : List SEff) : Bytes :=
  o.flatMap fun e => match e with
    | .write w => w
    | .echo w => w
    | _ => []

theorem wireOf_append (a b : List SEff) : wireOf (a ++ b) = wireOf a ++ wireOf b := by simp [wireOf]

theorem wireOf_map_write (q : List Bytes) : wireOf (q.map .write) = q.flatten := by
  simp [wireOf, List.flatMap_def, Function.comp_def]

/-- The events for a call: one for each group, or for the date and for the time. -/
def callEvents (now : PyDateTime) : ClientCall → List SEvent
  | .on g => g.map .lightingOn
  | .off g => g.map .lightingOff
  | .terminate g => g.map .lightingTerminate
  | .ramp g d l => [.lightingRamp g (quantise d) l]
  | .clock t => [.clockUpdate (.date t.date), .clockUpdate (.time { t.time with microsecond := 0 })]
  | .clockNow => [.clockUpdate (.date now.date), .clockUpdate (.time { now.time with microsecond := 0 })]
  | .identify _ _ => []

/-- The event for a SAL of one of the simple kinds. -/
def simpleEvent : SAL → Option SEvent
  | .lightOn g => some (.lightingOn g)
  | .lightOff g => some (.lightingOff g)
  | .lightTerminate g => some (.lightingTerminate g)
  | .lightRamp g d l => some (.lightingRamp g d l)
  | .clockUpdate v => some (.clockUpdate v)
  | _ => none

theorem callSals_events (now : PyDateTime) (call : ClientCall) :
    ((callSals now call).map received).map simpleEvent = (callEvents now call).map some := by
  cases call <;> simp [callSals, callEvents, received, simpleEvent, clockUpdateSal, Function.comp_def]

theorem onSal_simple (rand : Nat → Int) (hr : Server.RandOk rand) (x : SAL) (e : SEvent) (hx : simpleEvent x = some e)
    (s : Server) : ∃ s' o, Server.onSal rand x s = (s', o, .ok true) ∧ sEventsOf o = [e] := by
  cases x with
  | clockUpdate v =>
    simp only [simpleEvent, Option.some.injEq] at hx
    subst hx
    obtain ⟨w1, w2, h⟩ := Server.onClockUpdate_eq rand hr v s
    have he : Server.onSal rand (.clockUpdate v) s = Proc.andThen (Server.onClockUpdate rand v) (fun _ => pure true) s := rfl
    rw [he, andThen_ok h]
    exact ⟨_, _, rfl, rfl⟩
  | lightOn | lightOff | lightTerminate | lightRamp =>
    simp only [simpleEvent, Option.some.injEq] at hx
    subst hx
    exact ⟨_, _, rfl, rfl⟩
  | _ => simp [simpleEvent] at hx

theorem onSals_simple (rand : Nat → Int) (hr : Server.RandOk rand) : ∀ (l : List SAL) (es : List SEvent),
    l.map simpleEvent = es.map some → ∀ s : Server,
    ∃ s' o, Server.onSals rand l s = (s', o, .ok true) ∧ sEventsOf o = es := by
  intro l
  induction l with
  | nil =>
    intro es h s
    have : es = [] := by simpa using h
    subst this
    exact ⟨_, _, rfl, rfl⟩
  | cons x l ih =>
    intro es h s
    cases es with
    | nil => simp at h
    | cons e es =>
      simp only [List.map_cons, List.cons.injEq] at h
      obtain ⟨s1, o1, h1, h2⟩ := onSal_simple rand hr x e h.1 s
      obtain ⟨s2, o2, h3, h4⟩ := ih es h.2 s1
      have he : Server.onSals rand (x :: l) s = Proc.andThen (Server.onSal rand x)
          (fun go => if go then Server.onSals rand l else pure false) s := rfl
      refine ⟨s2, o1 ++ o2, ?_, ?_⟩
      · rw [he, andThen_ok h1]
        simp only [if_true, h3]
      · rw [sEventsOf_append, h2, h4]; rfl

/-- Handling a broadcast command: its events, its confirmation, nothing else that
matters here. -/
theorem onPacket_call (rand : Nat → Int) (hr : Server.RandOk rand) (l : List SAL) (es : List SEvent)
    (hes : l.map simpleEvent = es.map some) (q : PM) (hq1 : q.sals = l) (c : UInt8) (hconf : q.conf = some c)
    (hcode : c ∈ confirmationCodes) (s : Server) (hc : s.connected = true) (hq : Server.QueueLines s) :
    ∃ s' o, Server.onPacket rand (.pm q) s = (s', o, .ok ()) ∧ Kept s s' ∧ sEventsOf o = es ∧
      confirmationsOf o = [[c, 0x2e]] := by
  obtain ⟨s1, o1, h1, h2⟩ := onSals_simple rand hr l es hes s
  have hk := onSals_kept rand hr l s hc hq
  rw [h1] at hk
  obtain ⟨k1, k2, -⟩ := hk
  have he : Server.onPacket rand (.pm q) s = Proc.andThen (Server.onSals rand q.sals)
      (fun go => if go then Server.confirm q.conf else pure ()) s := rfl
  rw [hq1, hconf] at he
  have h3 : Server.confirm (some c) s1 = ({ s1 with queue := [] }, .write [c, 0x2e] :: s1.queue.map .write, .ok ()) :=
    Server.sendConfirmation_eq hcode true s1 k1.1
  refine ⟨{ s1 with queue := [] }, o1 ++ (.write [c, 0x2e] :: s1.queue.map .write), ?_, ?_, ?_, ?_⟩
  · rw [he, andThen_ok h1]
    simp only [if_true, h3]
  · obtain ⟨a, -, b⟩ := k1
    exact ⟨a, by simp [Server.QueueLines], b⟩
  · rw [sEventsOf_append, h2]
    have : sEventsOf (SEff.write [c, 0x2e] :: s1.queue.map .write) = [] := sEventsOf_map_write s1.queue
    rw [this, List.append_nil]
  · have h4 : (SEff.write [c, 0x2e] :: s1.queue.map .write) = [SEff.write [c, 0x2e]] ++ s1.queue.map .write := rfl
    rw [confirmationsOf_append, k2, h4, confirmationsOf_append, confirmations_queue k1.2.1]
    simp [confirmationsOf, sentOf, isConfirmation]

/-! ## Lines -/

/-- What the server's receiver needs to know to be indifferent to chunking. -/
abbrev ServerG : Bytes → Server → Prop := fun b s => true = true → NoBareCal (fun s : Server => s.checksum) b s

theorem serverChunkable (rand : Nat → Int) : Chunkable (Server.handle rand) ServerG :=
  handleData_chunkable (fun s : Server => s.checksum) Server.echo (Server.onPacket rand) true

/-- What becomes of a decoded message. -/
def actOn (rand : Nat → Int) : Option Packet → Proc Server SEff Unit
  | some q => Server.onPacket rand q
  | none => pure ()

/-- A line the server understands whatever follows it. -/
theorem server_line (rand : Nat → Int) (l : Bytes) (p : Option Packet) (s s' : Server) (o : List SEff) (M : Nat)
    (hl : l ≠ []) (hM : l.length ≤ M) (hcal : ∀ x, p ≠ some (.cal x))
    (hd : ∀ rest, decodePacket (l ++ rest) s.checksum true false = .ok (p, l.length)) (hc : s.connected = true)
    (hp : actOn rand p s = (s', o, .ok ())) :
    Run (Server.handle rand) ServerG M s l ((if s.basic then [.echo l] else []) ++ o) s' := by
  refine Run.one hl hM ?_ ?_
  · intro rest _ x n h
    rw [hd rest] at h
    simp only [Except.ok.injEq, Prod.mk.injEq] at h
    exact hcal x h.1
  · intro rest
    have hn : 0 < l.length := List.length_pos_iff.mpr hl
    have he : Server.handle rand (l ++ rest) s =
        Proc.andThen (Server.echo l) (fun _ =>
          Proc.andThen (actOn rand p) (fun _ => pure (l.length : Int))) s := by
      simp only [Server.handle, handleData, Bool.not_true, hd rest, hn, and_self, if_true, List.take_left]
      cases p <;> rfl
    have h1 : Server.echo l s = (s, if s.basic then [SEff.echo l] else [], .ok ()) := by
      unfold Server.echo; split <;> simp
    rw [he, andThen_ok h1, andThen_ok hp]
    simp [pure]

/-! ## The connection set-up -/

/-- The state after a reset. -/
def resetState (s : Server) : Server :=
  { s with basic := true, idmon := false, connect := false, checksum := false, monitor := false, app1 := 0xff, app2 := 0xff }

theorem run_reset (rand : Nat → Int) (s : Server) (hc : s.connected = true) :
    ∃ o, Run (Server.handle rand) ServerG 47 s (ascii "~\r") o (resetState s) ∧ sEventsOf o = [.reset] ∧
      confirmationsOf o = [] ∧ wireOf o = (if s.basic then [0x7e] else []) ++ [0x0d] := by
  have a1 : ascii "~" = [0x7e] := by decide
  have h1 := server_line rand [0x7e] (some .reset) s (resetState s) [.event .reset] 47 (by simp) (by simp) (by simp)
    (by intro rest; simp [decodePacket, frameClient, List.isPrefixOf]) hc rfl
  have h2 := server_line rand [0x0d] none (resetState s) (resetState s) [] 47 (by simp) (by simp) (by simp)
    (by
      intro rest
      have : frameClient ([] ++ 0x0d :: rest) = .line [] 1 := frameClient_line [] rest (by simp) (by simp) (by simp) (by simp) (by simp)
      simp only [List.nil_append] at this
      simp [decodePacket, this, decodeLine]) hc rfl
  refine ⟨_, h1.append h2, ?_, ?_, ?_⟩
  · cases s.basic <;> simp [sEventsOf, resetState]
  · cases s.basic <;> simp [confirmationsOf, sentOf, resetState]
  · cases s.basic <;> simp [wireOf, resetState]

theorem run_dm (rand : Nat → Int) (s : Server) (hc : s.connected = true) (hq : Server.QueueLines s)
    (hcs : s.checksum = false) (param value : Int) (hp : IsByte param) (hv : IsByte value) (c : UInt8)
    (hcode : c ∈ confirmationCodes) (s1 : Server) (hdm : ∀ conf, Server.onDM { checksum := false, parameter := param, value := value, conf := conf } s = (s1, [], .ok true))
    (h1 : s1.connected = true) (h2 : s1.queue = s.queue) (w : Bytes) (hw : (Packet.dm { checksum := false, parameter := param, value := value }).encodePacket = .ok w)
    (hw8 : w.length = 8) :
    ∃ o, Run (Server.handle rand) ServerG 47 s (w ++ [c, 0x0d]) o { s1 with queue := [] } ∧ sEventsOf o = [] ∧
      confirmationsOf o = [[c, 0x2e]] ∧
      wireOf o = (if s.basic then w ++ [c, 0x0d] else []) ++ ([c, 0x2e] ++ s.queue.flatten) := by
  have hconf : Server.confirm (some c) s1 = ({ s1 with queue := [] }, .write [c, 0x2e] :: s1.queue.map .write, .ok ()) :=
    Server.sendConfirmation_eq hcode true s1 h1
  have hact : Server.onPacket rand (.dm { checksum := false, parameter := param, value := value, conf := some c }) s =
      ({ s1 with queue := [] }, .write [c, 0x2e] :: s1.queue.map .write, .ok ()) := by
    have he : Server.onPacket rand (.dm { checksum := false, parameter := param, value := value, conf := some c }) s =
        Proc.andThen (Server.onDM { checksum := false, parameter := param, value := value, conf := some c })
          (fun go => if go then Server.confirm (some c) else pure ()) s := rfl
    rw [he, andThen_ok (hdm (some c))]
    simp only [if_true, hconf, List.nil_append]
  have hrun := server_line rand (w ++ [c, 0x0d])
    (some (.dm { checksum := false, parameter := param, value := value, conf := some c })) s _ _ 47 (by simp) (by simp [hw8]) (by simp)
    (by
      intro rest
      obtain ⟨w', e1, e2⟩ := C30_command { checksum := false, parameter := param, value := value } rfl false (some c) rest true
        (by intro x hx; cases hx; exact hcode)
      rw [hw, Except.ok.injEq] at e1
      subst e1
      have m1 : param % 256 = param := by unfold IsByte at hp; omega
      have m2 : value % 256 = value := by unfold IsByte at hv; omega
      simp only [Bool.false_eq_true, if_false, List.nil_append, Option.toList_some, m1, m2, hw8, List.length_cons,
        List.length_nil] at e2
      rw [hcs]
      simp only [List.append_assoc, List.cons_append, List.nil_append, List.length_append, hw8, List.length_cons,
        List.length_nil] at e2 ⊢
      exact e2) hc hact
  refine ⟨_, hrun, ?_, ?_, ?_⟩
  · rw [sEventsOf_append]
    have : sEventsOf (SEff.write [c, 0x2e] :: s1.queue.map .write) = [] := sEventsOf_map_write s1.queue
    rw [this]
    cases s.basic <;> rfl
  · have hq1 : Server.QueueLines s1 := by unfold Server.QueueLines; rw [h2]; exact hq
    have h4 : (SEff.write [c, 0x2e] :: s1.queue.map .write) = [SEff.write [c, 0x2e]] ++ s1.queue.map .write := rfl
    rw [confirmationsOf_append, h4, confirmationsOf_append, confirmations_queue hq1]
    cases s.basic <;> simp [confirmationsOf, sentOf, isConfirmation]
  · have h4 : (SEff.write [c, 0x2e] :: s1.queue.map .write) = [SEff.write [c, 0x2e]] ++ s1.queue.map .write := rfl
    rw [wireOf_append, h4, wireOf_append, wireOf_map_write, h2]
    cases s.basic <;> simp [wireOf]

/-- What the server sends while a client connects: the echoed commands, each
followed by its confirmation. -/
def chatter (c1 c2 c3 : UInt8) : Bytes :=
  ascii "~\r~\r~\r" ++ (ascii "A3210038" ++ [c1, 0x0d, c1, 0x2e]) ++ (ascii "A342000E" ++ [c2, 0x0d, c2, 0x2e]) ++
    (ascii "A3300059" ++ [c3, 0x0d, c3, 0x2e])

/-- The stream a client writes when it connects. -/
def setup (c1 c2 c3 : UInt8) : Bytes :=
  ascii "~\r" ++ (ascii "~\r" ++ (ascii "~\r" ++ ((ascii "A3210038" ++ [c1, 0x0d]) ++ ((ascii "A342000E" ++ [c2, 0x0d]) ++
    (ascii "A3300059" ++ [c3, 0x0d])))))

theorem run_setup (rand : Nat → Int) (s : Server) (hc : s.connected = true) (hq : Server.QueueLines s) (c1 c2 c3 : UInt8)
    (h1 : c1 ∈ confirmationCodes) (h2 : c2 ∈ confirmationCodes) (h3 : c3 ∈ confirmationCodes) :
    ∃ o s', Run (Server.handle rand) ServerG 47 s (setup c1 c2 c3) o s' ∧ s'.connected = true ∧ Server.QueueLines s' ∧
      optionsOf s' = optionsFor 0x59 ∧ sEventsOf o = [.reset, .reset, .reset] ∧
      confirmationsOf o = [[c1, 0x2e], [c2, 0x2e], [c3, 0x2e]] ∧ s'.queue = [] ∧
      (s.basic = true → s.queue = [] → wireOf o = chatter c1 c2 c3) := by
  obtain ⟨o1, r1, e1, f1, w1⟩ := run_reset rand s hc
  obtain ⟨o2, r2, e2, f2, w2⟩ := run_reset rand (resetState s) hc
  obtain ⟨o3, r3, e3, f3, w3⟩ := run_reset rand (resetState (resetState s)) hc
  have hs : resetState (resetState (resetState s)) = resetState s := rfl
  rw [hs] at r3
  obtain ⟨o4, r4, e4, f4, w4⟩ := run_dm rand (resetState s) hc hq rfl 0x21 0x38 (by decide) (by decide) c1 h1 (resetState s)
    (by intro conf; rfl) hc rfl (ascii "A3210038") (by decide +kernel) (by decide)
  obtain ⟨o5, r5, e5, f5, w5⟩ := run_dm rand { resetState s with queue := [] } hc (by simp [Server.QueueLines]) rfl 0x42 0x0e (by decide) (by decide)
    c2 h2 { resetState s with queue := [] } (by intro conf; rfl) hc rfl (ascii "A342000E") (by decide +kernel) (by decide)
  obtain ⟨o6, r6, e6, f6, w6⟩ := run_dm rand { resetState s with queue := [] } hc (by simp [Server.QueueLines]) rfl 0x30 0x59 (by decide) (by decide)
    c3 h3 { resetState s with queue := [], connect := true, checksum := true, basic := false, monitor := false, idmon := true }
    (by
      intro conf
      unfold Server.onDM
      rw [if_neg (by simp), if_pos (by simp)]
      have hv : lowByte 0x59 = 0x59 := by decide
      simp only [hv]
      rfl) hc rfl (ascii "A3300059") (by decide +kernel) (by decide)
  refine ⟨_, _, r1.append (r2.append (r3.append (r4.append (r5.append r6)))), hc, by simp [Server.QueueLines], ?_, ?_, ?_⟩
  · rfl
  · simp only [sEventsOf_append, e1, e2, e3, e4, e5, e6]; rfl
  · simp only [confirmationsOf_append, f1, f2, f3, f4, f5, f6]
    simp only [List.nil_append, List.cons_append, true_and]
    intro hb hqe
    have hb2 : (resetState s).basic = true := rfl
    have hq2 : (resetState s).queue = [] := hqe
    have hb3 : (resetState (resetState s)).basic = true := rfl
    simp only [wireOf_append, w1, w2, w3, w4, w5, w6, hb, hb2, hb3, hq2, if_true]
    simp [chatter, show ascii "~\r~\r~\r" = [0x7e, 0x0d, 0x7e, 0x0d, 0x7e, 0x0d] by decide]

/-! ## C55 -/

/-- The events that a sequence of calls is to cause; `k` readings of the clock have
been made before. -/
def sessionEvents (now : Nat → PyDateTime) : Nat → List ClientCall → List SEvent
  | _, [] => []
  | k, call :: calls => callEvents (now k) call ++ sessionEvents now (k + if call = .clockNow then 1 else 0) calls

/-- The confirmation the server owes for a code. -/
def confirmationFor (c : UInt8) : Bytes := [c, 0x2e]

theorem run_call (rand : Nat → Int) (hr : Server.RandOk rand) (now : PyDateTime) (hnow : DateTimeOk now) (wd : PyDate → Nat)
    (hwd : ∀ d : PyDate, d.Valid → IsWeekday d (wd d)) (call : ClientCall) (hb : IsBroadcast call) (hok : call.Ok)
    (ht : call.TimeOk) (c : UInt8) (hcode : c ∈ confirmationCodes) (t : Server) (hc : t.connected = true)
    (hq : Server.QueueLines t) (hcs : t.checksum = true) :
    ∃ o t', Run (Server.handle rand) ServerG 47 t (0x5c :: b16encode (addChecksum (call.frame now wd)) ++ [c, 0x0d]) o t' ∧
      Kept t t' ∧ sEventsOf o = callEvents now call ∧ confirmationsOf o = [confirmationFor c] := by
  obtain ⟨app, h1, h2, h3⟩ := call_packet now hnow wd hwd call hb hok ht
  obtain ⟨w, e1, e2⟩ := C25_command _ h1 rfl
  rw [h2, Except.ok.injEq] at e1
  subst e1
  have hlen : (b16encode (addChecksum (call.frame now wd))).length ≤ 44 := by
    rw [b16encode_length]
    simp only [addChecksum, List.length_append, List.length_cons, List.length_nil]
    omega
  obtain ⟨t', o, g1, g2, g3, g4⟩ := onPacket_call rand hr ((callSals now call).map received) (callEvents now call)
    (callSals_events now call)
    { app := some app, sals := (callSals now call).map received, conf := some c } rfl c rfl hcode t hc hq
  refine ⟨_, _, server_line rand (0x5c :: b16encode (addChecksum (call.frame now wd)) ++ [c, 0x0d])
    (some (.pm { app := some app, sals := (callSals now call).map received, conf := some c }))
    t t' o 47 (by simp) ?_ (by simp) ?_ hc g1, g2, ?_, ?_⟩
  · simp only [List.length_append, List.length_cons, List.length_nil]; omega
  · intro rest
    have := e2 (some c) rest true (by intro x hx; cases hx; exact hcode)
    rw [hcs]
    simp only [Option.toList_some, List.cons_append, List.append_assoc, List.nil_append, List.length_cons, List.length_nil,
      List.length_append] at this ⊢
    rw [this]
    congr 3
    omega
  · rw [sEventsOf_append, g3]
    cases t.basic <;> rfl
  · rw [confirmationsOf_append, g4]
    cases t.basic <;> rfl

theorem run_calls (rand : Nat → Int) (hr : Server.RandOk rand) (now : Nat → PyDateTime) (hnow : ∀ n, DateTimeOk (now n))
    (hook : Event → Proc Client (Eff π) Unit) : ∀ (calls : List ClientCall),
    (∀ k ∈ calls, IsBroadcast k ∧ k.Ok ∧ k.TimeOk) → ∀ (cl : Conn Client), cl.st.connected = true → cl.st.nextConf < 20 →
    ∀ (t : Server), t.connected = true → Server.QueueLines t → t.checksum = true →
    ∃ o t', Run (Server.handle rand) ServerG 47 t
        (writesOf (runOps hook now (calls.map .call) cl).2).flatten o t' ∧ Kept t t' ∧
      sEventsOf o = sessionEvents now cl.st.clockReads calls ∧
      confirmationsOf o = (cycleFrom cl.st.nextConf calls.length).map confirmationFor := by
  intro calls
  induction calls with
  | nil =>
    intro _ cl _ _ t hc hq _
    exact ⟨[], t, .nil t, Kept.refl hc hq, rfl, rfl⟩
  | cons call calls ih =>
    intro hall cl hcc hk t hc hq hcs
    obtain ⟨hb, hok, ht⟩ := hall call (by simp)
    obtain ⟨c, hc1, hc2⟩ := code_at hk
    have hrun := run_ok (π := π) now PyDate.weekday (fun d hd => isWeekday_weekday d hd) hnow call hok ht cl.st hcc c hc1
    obtain ⟨o1, t1, r1, k1, e1, f1⟩ := run_call rand hr (now cl.st.clockReads) (hnow _) PyDate.weekday
      (fun d hd => isWeekday_weekday d hd) call hb hok ht c hc2 t hc hq hcs
    obtain ⟨o2, t2, r2, k2, e2, f2⟩ := ih (fun k hk => hall k (by simp [hk]))
      { cl with st := { cl.st with nextConf := (cl.st.nextConf + 1) % 20, clockReads := cl.st.clockReads + if call = .clockNow then 1 else 0 } }
      hcc (Nat.mod_lt _ (by decide)) t1 k1.1 k1.2.1 (by rw [← hcs]; exact k1.2.2.2.1)
    refine ⟨o1 ++ o2, t2, ?_, k1.trans k2, ?_, ?_⟩
    · have := r1.append r2
      simp only [List.map_cons, runOps, runOp, onConn, hrun, writesOf_append, List.flatten_append]
      simpa [writesOf] using this
    · rw [sEventsOf_append, e1, e2]; rfl
    · rw [confirmationsOf_append, f1, f2]
      have h20 : ∀ k : Fin 20, ∀ c, confirmationCodes[k.1]? = some c → (ascii "hijklmnopqrstuvwxyzg").getD (k.1 % 20) 0 = c := by
        decide +kernel
      have := h20 ⟨cl.st.nextConf, hk⟩ c hc1
      simp only [cycleFrom, List.length_cons, List.range_succ_eq_map, List.map_cons, List.map_map, Nat.add_zero, this,
        List.singleton_append, List.cons.injEq, true_and]
      apply List.map_congr_left
      intro i _
      simp only [Function.comp_apply]
      congr 2
      omega

theorem run_session (rand : Nat → Int) (hr : Server.RandOk rand) (now : Nat → PyDateTime) (hnow : ∀ n, DateTimeOk (now n))
    (hook : Event → Proc Client (Eff π) Unit) (calls : List ClientCall)
    (hall : ∀ k ∈ calls, IsBroadcast k ∧ k.Ok ∧ k.TimeOk) (cl : Conn Client) (hk : cl.st.nextConf < 20)
    (t : Server) (hc : t.connected = true) (hq : Server.QueueLines t) :
    ∃ o t', Run (Server.handle rand) ServerG 47 t
        (writesOf (runOps hook now (.made :: calls.map .call) cl).2).flatten o t' ∧ t'.connected = true ∧
      optionsOf t' = optionsFor 0x59 ∧
      sEventsOf o = [.reset, .reset, .reset] ++ sessionEvents now cl.st.clockReads calls ∧
      confirmationsOf o = (cycleFrom cl.st.nextConf (3 + calls.length)).map confirmationFor := by
  obtain ⟨c1, c2, c3, h1, h2⟩ := C46_connect (π := π) cl.st hk
  have hcodes : ∀ k : Fin 20, ∀ c ∈ cycleFrom k.1 3, c ∈ confirmationCodes := by decide +kernel
  have hmem : ∀ c ∈ [c1, c2, c3], c ∈ confirmationCodes := by rw [← h1]; exact hcodes ⟨cl.st.nextConf, hk⟩
  obtain ⟨o1, t1, r1, a1, a2, a3, a4, a5, -, -⟩ := run_setup rand t hc hq c1 c2 c3 (hmem _ (by simp)) (hmem _ (by simp)) (hmem _ (by simp))
  have hch : t1.checksum = true := congrArg Options.checksum a3
  obtain ⟨o2, t2, r2, b1, b2, b3⟩ := run_calls rand hr now hnow hook calls hall
    { cl with st := { cl.st with connected := true, nextConf := (cl.st.nextConf + 3) % 20 } } rfl (Nat.mod_lt _ (by decide))
    t1 a1 a2 hch
  refine ⟨o1 ++ o2, t2, ?_, b1.1, ?_, ?_, ?_⟩
  · have := r1.append r2
    have hw : writesOf (runOps hook now (.made :: calls.map .call) cl).2 =
        [ascii "~\r", ascii "~\r", ascii "~\r", ascii "A3210038" ++ [c1, 0x0d], ascii "A342000E" ++ [c2, 0x0d],
          ascii "A3300059" ++ [c3, 0x0d]] ++ writesOf (runOps hook now (calls.map .call)
          { cl with st := { cl.st with connected := true, nextConf := (cl.st.nextConf + 3) % 20 } }).2 := by
      simp only [runOps, runOp, onConn, h2, writesOf_append]
      split <;> rfl
    rw [hw]
    simpa [setup] using this
  · obtain ⟨-, -, k1, k2, k3, k4, k5⟩ := b1
    rw [← a3]
    simp only [optionsOf, k1, k2, k3, k4, k5]
  · rw [sEventsOf_append, a4, b2]
  · rw [confirmationsOf_append, a5, b3]
    have h3 : cycleFrom cl.st.nextConf (3 + calls.length) =
        cycleFrom cl.st.nextConf 3 ++ cycleFrom ((cl.st.nextConf + 3) % 20) calls.length := by
      simp only [cycleFrom, List.range_add, List.map_append, List.map_map, List.append_cancel_left_eq]
      apply List.map_congr_left
      intro i _
      simp only [Function.comp_apply]
      congr 1
      omega
    rw [h3, h1, List.map_append]
    rfl

/-- C55: connect a `PCIProtocol` (in any state) to a `PCIServerProtocol` with an
empty receive buffer (in any other state), and make any sequence of successful
lighting and clock calls. However the bytes the client writes are chopped into
pieces that the server's buffer can hold, the server raises no exception and is
left in smart mode with checksums on (the options of value 0x59), having raised
three resets and then exactly the events of the calls, in order, and having
confirmed every command with its own code, in order. -/
theorem C55_delivered (rand : Nat → Int) (hr : Server.RandOk rand) (now : Nat → PyDateTime) (hnow : ∀ n, DateTimeOk (now n))
    (hook : Event → Proc Client (Eff π) Unit) (calls : List ClientCall)
    (hall : ∀ k ∈ calls, IsBroadcast k ∧ k.Ok ∧ k.TimeOk) (cl : Conn Client) (hk : cl.st.nextConf < 20)
    (t : Server) (hc : t.connected = true) (hq : Server.QueueLines t) (chunks : List Bytes)
    (hch : chunks.flatten = (writesOf (runOps hook now (.made :: calls.map .call) cl).2).flatten)
    (hf : Fits maxBufferSize (Server.handle rand) chunks ⟨[], t⟩) :
    ∃ o t', feed maxBufferSize (Server.handle rand) chunks ⟨[], t⟩ = (⟨[], t'⟩, o, .ok ()) ∧
      t'.basic = false ∧ t'.checksum = true ∧ optionsOf t' = optionsFor 0x59 ∧
      sEventsOf o = [.reset, .reset, .reset] ++ sessionEvents now cl.st.clockReads calls ∧
      confirmationsOf o = (cycleFrom cl.st.nextConf (3 + calls.length)).map confirmationFor := by
  obtain ⟨o, t', h1, -, h3, h4, h5⟩ := run_session rand hr now hnow hook calls hall cl hk t hc hq
  rw [← hch] at h1
  exact ⟨o, t', Run.feed (serverChunkable rand) (by decide) maxBufferSize chunks o h1 hf, congrArg Options.basic h3,
    congrArg Options.checksum h3, h3, h4, h5⟩

/-- C55: pieces of up to 209 bytes always fit, since no command of the client is
longer than 47 bytes. -/
theorem C55_small_pieces_fit (rand : Nat → Int) (hr : Server.RandOk rand) (now : Nat → PyDateTime)
    (hnow : ∀ n, DateTimeOk (now n)) (hook : Event → Proc Client (Eff π) Unit) (calls : List ClientCall)
    (hall : ∀ k ∈ calls, IsBroadcast k ∧ k.Ok ∧ k.TimeOk) (cl : Conn Client) (hk : cl.st.nextConf < 20)
    (t : Server) (hc : t.connected = true) (hq : Server.QueueLines t) (chunks : List Bytes)
    (hch : chunks.flatten = (writesOf (runOps hook now (.made :: calls.map .call) cl).2).flatten)
    (hsm : ∀ d ∈ chunks, d.length ≤ 209) :
    Fits maxBufferSize (Server.handle rand) chunks ⟨[], t⟩ := by
  obtain ⟨o, t', h1, -⟩ := run_session rand hr now hnow hook calls hall cl hk t hc hq
  rw [← hch] at h1
  exact Run.fits (serverChunkable rand) (by decide) maxBufferSize (by decide) chunks o h1 hsm

/-- Two calls against a fresh server, delivered a byte at a time. -/
example :
    let calls := [ClientCall.on [1, 2], .ramp 7 5 (.int 128)]
    let w := (writesOf (runOps (π := Nat) (fun _ => pure ()) (fun _ => ⟨⟨2024, 2, 29⟩, ⟨13, 1, 2, 0⟩⟩)
      (.made :: calls.map .call) ⟨[], {}⟩).2).flatten
    let r := feed maxBufferSize (Server.handle fun _ => 1) (w.map fun b => [b]) ⟨[], { connected := true }⟩
    (∀ k ∈ calls, IsBroadcast k ∧ k.Ok) ∧
    w = ascii "~\r~\r~\rA3210038h\rA342000Ei\rA3300059j\r\\05380079017902CEk\r\\0538001207802Al\r" ∧
    r.2.2 = .ok () ∧
    sEventsOf r.2.1 = [.reset, .reset, .reset, .lightingOn 1, .lightingOn 2, .lightingRamp 7 8 (.int 128)] ∧
    confirmationsOf r.2.1 = [ascii "h.", ascii "i.", ascii "j.", ascii "k.", ascii "l."] := by decide +kernel

/-! ## C56 -/

/-- Something that happens on the C-Bus network: a unit switches, ramps or stops a
group. -/
inductive NetEvent
  | on (src ga : Int)
  | off (src ga : Int)
  | terminate (src ga : Int)
  | ramp (src ga duration level : Int)
  deriving DecidableEq, Repr

namespace NetEvent

/-- Unit addresses 1..255, group addresses and levels 0..255. -/
def Ok : NetEvent → Prop
  | .on src ga | .off src ga | .terminate src ga => 1 ≤ src ∧ src ≤ 255 ∧ IsByte ga
  | .ramp src ga _ level => 1 ≤ src ∧ src ≤ 255 ∧ IsByte ga ∧ IsByte level

instance (e : NetEvent) : Decidable e.Ok := by cases e <;> (unfold Ok; infer_instance)

/-- The method of the simulated PCI that reports it. -/
def op : NetEvent → ServerOp
  | .on src ga => .on src ga
  | .off src ga => .off src ga
  | .terminate src ga => .terminate src ga
  | .ramp src ga d l => .ramp src ga d (.int l)

/-- The handler call it is to cause in a client: with the duration that C-Bus has
for it. -/
def event : NetEvent → Event
  | .on src ga => .lightingOn (some src) ga
  | .off src ga => .lightingOff (some src) ga
  | .terminate src ga => .lightingTerminate (some src) ga
  | .ramp src ga d l => .lightingRamp (some src) ga (quantise d) (.int l)

def sal : NetEvent → SAL
  | .on _ ga => .lightOn ga
  | .off _ ga => .lightOff ga
  | .terminate _ ga => .lightTerminate ga
  | .ramp _ ga d l => .lightRamp ga d (.int l)

def src : NetEvent → Int
  | .on src _ | .off src _ | .terminate src _ | .ramp src _ _ _ => src

def pm (e : NetEvent) : PM := { checksum := true, app := some appLighting, sals := [e.sal], src := some e.src }

theorem event_eq (e : NetEvent) : (e.pm.sals.map received).filterMap (salEvent e.pm.src) = [e.event] := by cases e <;> rfl

/-- What the server writes. -/
theorem send_line (e : NetEvent) (h : e.Ok) (rand : Nat → Int) (c : Conn Server) (hc : c.st.connected = true)
    (hcs : c.st.checksum = true) (hq : c.st.queue = []) :
    ∃ l, runServerOp rand e.op c = (c, [.write l]) ∧ EventLine e.pm l ∧ l.length ≤ 20 := by
  have hsrc : 1 ≤ e.src ∧ e.src ≤ 255 := by cases e <;> exact ⟨h.1, h.2.1⟩
  have hok : SalOk e.sal := by
    cases e with
    | ramp => exact ⟨h.2.2.1, h.2.2.2⟩
    | _ => exact h.2.2
  have happ : e.sal.application = appLighting := by cases e <;> rfl
  have hpm : PmOk e.pm := by
    have := Server.eventPm_ok true e.sal e.src hok (by rw [happ]; decide)
    rw [happ] at this
    exact this
  obtain ⟨w, h1, -⟩ := C26_event e.pm hpm e.src rfl hsrc
  have hlen : w.length ≤ 18 := by
    have hx : ∃ x, encodeSals [e.sal] = .ok x ∧ x.length ≤ 3 := by
      have hb : ∀ g, IsByte g → ∀ a ∈ [g], IsByte a := by
        intro g hg a ha
        rw [List.mem_singleton] at ha
        exact ha ▸ hg
      cases e with
      | on src ga => exact ⟨_, listCall_on.encode [ga] (hb ga h.2.2), by simp⟩
      | off src ga => exact ⟨_, listCall_off.encode [ga] (hb ga h.2.2), by simp⟩
      | terminate src ga => exact ⟨_, listCall_terminate.encode [ga] (hb ga h.2.2), by simp⟩
      | ramp src ga d l =>
        exact ⟨_, by simp [NetEvent.sal, encodeSals, ramp_encode ga d (.int l) h.2.2.1 h.2.2.2, bind, Except.bind, pure, Except.pure]; rfl, by simp⟩
    obtain ⟨x, hx1, hx2⟩ := hx
    have ha : mkByte appLighting = .ok 0x38 := by decide
    have hr : ¬ (appLighting < 0 ∨ appLighting > 0xff) := by decide
    simp only [Packet.encodePacket, PM.encode, NetEvent.pm, hr, if_false, ha, hx1, bind, Except.bind, pure, Except.pure,
      if_true, Except.ok.injEq, headerBytes] at h1
    rw [← h1, b16encode_length]
    simp only [addChecksum, List.length_append, List.length_cons, List.length_nil]
    omega
  refine ⟨w ++ [0x0d, 0x0a], ?_, ⟨hpm, rfl, ⟨e.src, rfl, hsrc⟩, w, h1, rfl⟩, by simp; omega⟩
  have hs : Server.sendEvent (.ok e.sal) e.src c.st = (c.st, [.write (w ++ [0x0d, 0x0a])], .ok ()) := by
    unfold Server.sendEvent
    rw [Server.eventPacket_ok, happ, hcs]
    have := Server.send_eq (Server.serialize_pm h1) c.st hc
    simp only [hq, List.map_nil] at this
    have e2 : { c.st with queue := [] } = c.st := by rw [← hq]
    rw [e2] at this
    exact this
  have hmk : ∀ (m : Py SAL), m = .ok e.sal → onServer (Server.sendEvent m e.src) c = (c, [.write (w ++ [0x0d, 0x0a])]) := by
    intro m hm
    subst hm
    simp only [onServer, hs]
  cases e with
  | on src ga => exact hmk _ (Server.mkLightOn_spec ga h.2.2).1
  | off src ga => exact hmk _ (Server.mkLightOff_spec ga h.2.2).1
  | terminate src ga =>
    exact hmk _ (by simp [mkLightTerminate, checkGa_byte h.2.2, bind, Except.bind, pure, Except.pure, NetEvent.sal])
  | ramp src ga d l =>
    exact hmk _ (by simp [mkLightRamp, checkGa_byte h.2.2.1, bind, Except.bind, pure, Except.pure, NetEvent.sal])

theorem flatMap_events {items : List (PM × Bytes)} {es : List NetEvent}
    (h : (items.map fun i => (i.1.sals.map received).filterMap (salEvent i.1.src)) = es.map fun e => [e.event]) :
    (items.flatMap fun i => (i.1.sals.map received).filterMap (salEvent i.1.src)) = es.map event := by
  rw [List.flatMap_def, h]
  clear h
  induction es with
  | nil => rfl
  | cons e es ih => simp [ih]

/-- The same for several. -/
theorem send_lines (rand : Nat → Int) : ∀ (es : List NetEvent), (∀ e ∈ es, e.Ok) → ∀ (c : Conn Server),
    c.st.connected = true → c.st.checksum = true → c.st.queue = [] →
    ∃ items : List (PM × Bytes), runServerOps rand (es.map op) c = (c, items.map fun i => .write i.2) ∧
      (∀ i ∈ items, EventLine i.1 i.2 ∧ i.2.length ≤ 20) ∧
      (items.map fun i => (i.1.sals.map received).filterMap (salEvent i.1.src)) = es.map fun e => [e.event] := by
  intro es
  induction es with
  | nil => intro _ c _ _ _; exact ⟨[], rfl, by simp, rfl⟩
  | cons e es ih =>
    intro hok c hc hcs hq
    obtain ⟨l, h1, h2, h3⟩ := e.send_line (hok e (by simp)) rand c hc hcs hq
    obtain ⟨items, g1, g2, g3⟩ := ih (fun x hx => hok x (by simp [hx])) c hc hcs hq
    refine ⟨(e.pm, l) :: items, ?_, ?_, ?_⟩
    · simp only [List.map_cons, runServerOps, h1, g1, List.singleton_append]
    · intro i hi
      rcases List.mem_cons.1 hi with rfl | hi
      · exact ⟨h2, h3⟩
      · exact g2 i hi
    · simp only [g3, e.event_eq, List.map_cons]

end NetEvent

theorem wireOf_lines (items : List (PM × Bytes)) : wireOf (items.map fun i => .write i.2) = (items.map (·.2)).flatten := by
  simp [wireOf, List.flatMap_def, Function.comp_def]

/-- C56: the network events a simulated PCI in checksum mode reports to a
`PCIProtocol` with an empty buffer, whatever its state, reach the client's handlers
exactly, in order and with the right source addresses, however the bytes are
chopped into pieces the client's buffer can hold. -/
theorem C56_delivered (rand : Nat → Int) (now : Nat → PyDateTime) (hnow : ∀ n, DateTimeOk (now n)) (es : List NetEvent)
    (hok : ∀ e ∈ es, e.Ok) (c : Conn Server) (hc : c.st.connected = true) (hcs : c.st.checksum = true)
    (hq : c.st.queue = []) (s : Client) (hu : Up s) (chunks : List Bytes)
    (hch : chunks.flatten = wireOf (runServerOps rand (es.map NetEvent.op) c).2)
    (hf : Fits maxBufferSize (Client.handle (π := π) (Client.baseHook now)) chunks ⟨[], s⟩) :
    let r := feed maxBufferSize (Client.handle (π := π) (Client.baseHook now)) chunks ⟨[], s⟩
    r.2.2 = .ok () ∧ r.1.buf = [] ∧ eventsOf r.2.1 = es.map NetEvent.event := by
  obtain ⟨items, h1, h2, h3⟩ := NetEvent.send_lines rand es hok c hc hcs hq
  rw [h1, wireOf_lines] at hch
  have := C47_stream (π := π) now hnow s hu items (fun i hi => (h2 i hi).1) chunks hch hf
  rw [NetEvent.flatMap_events h3] at this
  exact this

theorem clientChunkable (hook : Event → Proc Client (Eff π) Unit) :
    Chunkable (Client.handle hook) (fun b s => false = true → NoBareCal (fun _ : Client => true) b s) :=
  handleData_chunkable (fun _ => true) (fun _ => pure ()) (Client.onPacket hook) false

/-- Messages a client understands whatever follows them. -/
theorem client_run (now : Nat → PyDateTime) (hnow : ∀ n, DateTimeOk (now n)) (M : Nat) :
    ∀ (items : List (Bytes × Option Packet)) (s : Client), Up s →
    (∀ i ∈ items, i.1 ≠ [] ∧ i.1.length ≤ M ∧ ∀ rest, decodePacket (i.1 ++ rest) true true true = .ok (i.2, i.1.length)) →
    ∃ s' o, Run (Client.handle (π := π) (Client.baseHook now)) (fun b s => false = true → NoBareCal (fun _ : Client => true) b s) M s
        (items.map (·.1)).flatten o s' ∧ Up s' ∧
      eventsOf o = items.flatMap fun i => i.2.toList.flatMap packetEvents := by
  intro items
  induction items with
  | nil => intro s hu _; exact ⟨s, [], .nil s, hu, rfl⟩
  | cons i items ih =>
    intro s hu hi
    obtain ⟨h1, h2, h3⟩ := hi i (by simp)
    obtain ⟨s1, o1, e1, e2, e3⟩ := runPackets_base (π := π) now hnow i.2.toList s hu
    obtain ⟨s2, o2, f1, f2, f3⟩ := ih s1 e2 (fun j hj => hi j (by simp [hj]))
    refine ⟨s2, o1 ++ o2, Run.cons h1 h2 (fun _ h => absurd h (by decide)) ?_ f1, f2, ?_⟩
    · intro rest
      unfold Client.handle handleData
      rw [show (!false) = true from rfl, h3 rest]
      have hl : 0 < i.1.length := List.length_pos_iff.mpr h1
      cases hp : i.2 with
      | none =>
        rw [hp] at e1
        simp only [Option.toList_none, runPackets, Prod.mk.injEq] at e1
        simp [Proc.andThen, pure, ← e1.1, ← e1.2.1]
      | some p =>
        rw [hp] at e1
        have he : runPackets (Client.onPacket (π := π) (Client.baseHook now)) [p] s =
          Proc.andThen (Client.onPacket (Client.baseHook now) p) (fun _ => runPackets (Client.onPacket (Client.baseHook now)) []) s := rfl
        rw [Option.toList_some, he] at e1
        obtain ⟨t, o, r, hx⟩ : ∃ t o r, Client.onPacket (π := π) (Client.baseHook now) p s = (t, o, r) := ⟨_, _, _, rfl⟩
        cases r with
        | error e => rw [andThen_error hx] at e1; simp at e1
        | ok u =>
          rw [andThen_ok hx] at e1
          simp only [runPackets, List.append_nil, Prod.mk.injEq] at e1
          simp [Proc.andThen, pure, hx, e1.1, e1.2.1]
    · rw [eventsOf_append, e3, f3]; rfl

/-- C56: pieces of up to 236 bytes always fit. -/
theorem C56_small_pieces_fit (rand : Nat → Int) (now : Nat → PyDateTime) (hnow : ∀ n, DateTimeOk (now n)) (es : List NetEvent)
    (hok : ∀ e ∈ es, e.Ok) (c : Conn Server) (hc : c.st.connected = true) (hcs : c.st.checksum = true)
    (hq : c.st.queue = []) (s : Client) (hu : Up s) (chunks : List Bytes)
    (hch : chunks.flatten = wireOf (runServerOps rand (es.map NetEvent.op) c).2) (hsm : ∀ d ∈ chunks, d.length ≤ 236) :
    Fits maxBufferSize (Client.handle (π := π) (Client.baseHook now)) chunks ⟨[], s⟩ := by
  obtain ⟨items, h1, h2, h3⟩ := NetEvent.send_lines rand es hok c hc hcs hq
  obtain ⟨s', o, r1, -, -⟩ := client_run (π := π) now hnow 20
    (items.map fun i => (i.2, some (.pm { i.1 with sals := i.1.sals.map received, conf := none }))) s hu (by
      intro j hj
      obtain ⟨m, hm, rfl⟩ := List.mem_map.1 hj
      have := eventLine_lineFor (h2 m hm).1
      exact ⟨this.1, (h2 m hm).2, this.2⟩)
  rw [h1, wireOf_lines] at hch
  have r2 : Run (Client.handle (π := π) (Client.baseHook now)) (fun b s => false = true → NoBareCal (fun _ : Client => true) b s) 20 s
      chunks.flatten o s' := by
    rw [hch]; simpa [Function.comp_def] using r1
  exact Run.fits (clientChunkable (Client.baseHook now)) (by decide) maxBufferSize (by decide) chunks o r2 hsm

/-- Three events, in pieces of one byte. -/
example :
    let es := [NetEvent.on 5 1, .ramp 7 2 5 128, .off 255 0]
    let w := wireOf (runServerOps (fun _ => 1) (es.map NetEvent.op) ⟨[], { connected := true, checksum := true }⟩).2
    (∀ e ∈ es, e.Ok) ∧ w = ascii "05053800790144\r\n0507380012028028\r\n05FF38000100C3\r\n" ∧
    eventsOf (feed maxBufferSize (Client.handle (π := Nat) (Client.baseHook fun _ => ⟨⟨2024, 2, 29⟩, ⟨13, 1, 2, 0⟩⟩))
      (w.map fun b => [b]) ⟨[], { connected := true }⟩).2.1 =
      [.lightingOn (some 5) 1, .lightingRamp (some 7) 2 8 (.int 128), .lightingOff (some 255) 0] := by decide +kernel

/-! ## C57 -/

theorem receive_feed (rand : Nat → Int) : ∀ (chunks : List Bytes) (c c' : Conn Server) (o : List SEff),
    feed maxBufferSize (Server.handle rand) chunks c = (c', o, .ok ()) →
    runServerOps rand (chunks.map .receive) c = (c', o) := by
  intro chunks
  induction chunks with
  | nil =>
    intro c c' o h
    simp only [feed, Prod.mk.injEq] at h
    obtain ⟨rfl, rfl, -⟩ := h
    rfl
  | cons d ds ih =>
    intro c c' o h
    have he : feed maxBufferSize (Server.handle rand) (d :: ds) c =
      Proc.andThen (dataReceived maxBufferSize (Server.handle rand) d) (fun _ => feed maxBufferSize (Server.handle rand) ds) c := rfl
    obtain ⟨t, o1, r, hx⟩ : ∃ t o r, dataReceived maxBufferSize (Server.handle rand) d c = (t, o, r) := ⟨_, _, _, rfl⟩
    rw [he] at h
    cases r with
    | error e => rw [andThen_error hx] at h; simp at h
    | ok u =>
      rw [andThen_ok hx] at h
      simp only [Prod.mk.injEq] at h
      obtain ⟨h1, h2, h3⟩ := h
      have := ih t c' _ (Prod.ext h1 (Prod.ext rfl h3))
      have hd : Server.dataReceived rand d c = (t, o1, .ok u) := hx
      simp only [List.map_cons, runServerOps, runServerOp, hd, this, h2]

theorem runServerOps_append (rand : Nat → Int) : ∀ (a b : List ServerOp) (c : Conn Server),
    runServerOps rand (a ++ b) c =
      ((runServerOps rand b (runServerOps rand a c).1).1,
       (runServerOps rand a c).2 ++ (runServerOps rand b (runServerOps rand a c).1).2) := by
  intro a
  induction a with
  | nil => intro b c; rfl
  | cons x a ih => intro b c; simp only [List.cons_append, runServerOps, ih, List.append_assoc]

/-- The server's side of a client connecting. -/
theorem setup_wire (rand : Nat → Int) (k : Nat) (hk : k < 20) (c1 c2 c3 : UInt8) (hcy : cycleFrom k 3 = [c1, c2, c3])
    (chunks : List Bytes) (hch : chunks.flatten = setup c1 c2 c3)
    (hf : Fits maxBufferSize (Server.handle rand) chunks ⟨[], { connected := true }⟩) :
    ∃ t' o, runServerOps rand (chunks.map .receive) ⟨[], { connected := true }⟩ = (⟨[], t'⟩, o) ∧ t'.connected = true ∧
      t'.checksum = true ∧ t'.queue = [] ∧ wireOf o = chatter c1 c2 c3 := by
  have hcodes : ∀ k : Fin 20, ∀ c ∈ cycleFrom k.1 3, c ∈ confirmationCodes := by decide +kernel
  have hmem : ∀ c ∈ [c1, c2, c3], c ∈ confirmationCodes := by rw [← hcy]; exact hcodes ⟨k, hk⟩
  obtain ⟨o, t', r, a1, -, a3, -, -, a6, a7⟩ := run_setup rand { connected := true } rfl (by simp [Server.QueueLines]) c1 c2 c3
    (hmem _ (by simp)) (hmem _ (by simp)) (hmem _ (by simp))
  have r' : Run (Server.handle rand) ServerG 47 { connected := true } chunks.flatten o t' := by rw [hch]; exact r
  have h1 := Run.feed (serverChunkable rand) (by decide) maxBufferSize chunks o r' hf
  refine ⟨t', o, receive_feed rand chunks _ _ _ h1, a1, congrArg Options.checksum a3, a6, a7 rfl rfl⟩

/-- A text without CRLF that does not end in CR either. -/
def noCrLf : Bytes → Bool
  | [] => true
  | [x] => x != 0x0d
  | x :: y :: r => !(x == 0x0d && y == 0x0a) && noCrLf (y :: r)

theorem find_crlf (w rest : Bytes) (hw : (0x0d : UInt8) ∉ w) : ∀ n, noCrLf n = true →
    find endResponse (n ++ w ++ 0x0d :: 0x0a :: rest) = some (n.length + w.length) := by
  intro n
  induction n with
  | nil => intro _; simpa [endResponse] using find_pair_append 0x0d 0x0a w rest hw
  | cons x n ih =>
    intro h
    cases n with
    | nil =>
      simp only [noCrLf, bne_iff_ne, ne_eq] at h
      have := ih rfl
      simp only [List.nil_append, List.length_nil, Nat.zero_add] at this
      simp only [List.cons_append, List.nil_append, find, this, Option.map_some, List.length_cons, List.length_nil]
      rw [if_neg (by simp [endResponse, List.isPrefixOf]; intro hx; exact absurd hx.symm h)]
      congr 1
      omega
    | cons y n =>
      simp only [noCrLf, Bool.and_eq_true] at h
      have := ih h.2
      simp only [List.cons_append, List.length_cons] at this ⊢
      rw [find, this, if_neg]
      · simp only [Option.map_some, Option.some.injEq]; omega
      · have h1 := h.1
        simp [endResponse, List.isPrefixOf]
        simp at h1
        intro hx hy
        rcases h1 with h1 | h1
        · exact h1 hx.symm
        · exact h1 hy.symm

/-- The first event after the chatter is swallowed. -/
theorem chatter_line (k : Nat) (hk : k < 20) (c1 c2 c3 : UInt8) (hcy : cycleFrom k 3 = [c1, c2, c3]) (w rest : Bytes)
    (hw : ∀ c ∈ w, IsUpperHex c) :
    decodePacket (chatter c1 c2 c3 ++ w ++ 0x0d :: 0x0a :: rest) true true true =
      .ok (some (.invalid (chatter c1 c2 c3 ++ w) .valueError), (chatter c1 c2 c3).length + w.length + 2) := by
  have key : ∀ k : Fin 20, noCrLf (chatter ((cycleFrom k.1 3).getD 0 0) ((cycleFrom k.1 3).getD 1 0) ((cycleFrom k.1 3).getD 2 0)) = true := by
    decide +kernel
  have hn := key ⟨k, hk⟩
  simp only [hcy, List.getD_cons_zero, List.getD_cons_succ] at hn
  have hcr : (0x0d : UInt8) ∉ w := fun h => by have := hw _ h; revert this; decide
  have hf := find_crlf w rest hcr _ hn
  obtain ⟨r, hr⟩ : ∃ r, chatter c1 c2 c3 = 0x7e :: r := ⟨_, rfl⟩
  rw [hr] at hf ⊢
  have hfr : framePci ((0x7e :: r) ++ w ++ 0x0d :: 0x0a :: rest) = .line ((0x7e :: r) ++ w) (((0x7e :: r)).length + w.length + 2) := by
    unfold framePci
    simp only [List.cons_append] at hf ⊢
    rw [if_neg (by decide), if_neg (by decide), if_neg (by simp [minMessageSize]; omega), if_neg (by decide), hf]
    simp only [endResponse, List.length_cons, List.length_nil]
    congr 1
    rw [show 0x7e :: (r ++ w ++ 0x0d :: 0x0a :: rest) = (0x7e :: (r ++ w)) ++ 0x0d :: 0x0a :: rest by simp]
    exact List.take_left' (by simp; omega)
  simp only [decodePacket, if_true, hfr]
  simp only [List.cons_append, decodeLine, if_true, decodeHex]
  rw [if_neg (by
    simp only [List.all_cons, Bool.and_eq_true]
    exact fun h => absurd h.1 (by decide))]

/-- The history of a simulated PCI to which a client connects (its set-up arriving in
pieces), and which then reports network events. -/
def pciHistory (pieces : List Bytes) (es : List NetEvent) : List ServerOp :=
  .made :: pieces.map .receive ++ es.map NetEvent.op

/-- C57, what is delivered (see `C57_false` for what is not): when a client connects
to a fresh simulated PCI, which then reports the network events `e :: es`, then
however the bytes are chopped in both directions, the client's handlers are called
for exactly the events `es`: not for the first event, and not for the three
confirmations either. -/
theorem C57_later_partial (rand : Nat → Int) (now : Nat → PyDateTime) (hnow : ∀ n, DateTimeOk (now n)) (cl : Client)
    (hk : cl.nextConf < 20) (pieces : List Bytes)
    (hp : pieces.flatten = (writesOf (Client.connectionMade (π := π) cl).2.1).flatten)
    (hpf : Fits maxBufferSize (Server.handle rand) pieces ⟨[], { connected := true }⟩)
    (e : NetEvent) (es : List NetEvent) (hok : ∀ x ∈ e :: es, x.Ok) (chunks : List Bytes)
    (hch : chunks.flatten = wireOf (runServerOps rand (pciHistory pieces (e :: es)) ⟨[], {}⟩).2)
    (hf : Fits maxBufferSize (Client.handle (π := π) (Client.baseHook now)) chunks
      ⟨[], (Client.connectionMade (π := π) cl).1⟩) :
    let r := feed maxBufferSize (Client.handle (π := π) (Client.baseHook now)) chunks
      ⟨[], (Client.connectionMade (π := π) cl).1⟩
    r.2.2 = .ok () ∧ r.1.buf = [] ∧ eventsOf r.2.1 = es.map NetEvent.event := by
  obtain ⟨c1, c2, c3, h1, h2⟩ := C46_connect (π := π) cl hk
  have hw : (writesOf (Client.connectionMade (π := π) cl).2.1).flatten = setup c1 c2 c3 := by
    rw [h2]
    have : writesOf ([.write (ascii "~\r"), .write (ascii "~\r"), .write (ascii "~\r"),
          .write (ascii "A3210038" ++ [c1, 0x0d]), .write (ascii "A342000E" ++ [c2, 0x0d]),
          .write (ascii "A3300059" ++ [c3, 0x0d])] ++ (if cl.timesync = 0 then [] else [Eff.startTimesync (π := π)])) =
        [ascii "~\r", ascii "~\r", ascii "~\r", ascii "A3210038" ++ [c1, 0x0d], ascii "A342000E" ++ [c2, 0x0d],
          ascii "A3300059" ++ [c3, 0x0d]] := by split <;> rfl
    rw [this]
    simp [setup]
  rw [hw] at hp
  obtain ⟨t, o, g1, g2, g3, g4, g5⟩ := setup_wire rand cl.nextConf hk c1 c2 c3 h1 pieces hp hpf
  obtain ⟨items, i1, i2, i3⟩ := NetEvent.send_lines rand (e :: es) hok ⟨[], t⟩ g2 g3 g4
  cases items with
  | nil => simp at i3
  | cons i items =>
    obtain ⟨i2a, i2b⟩ := i2 i (by simp)
    obtain ⟨hpm, hcs, ⟨a, ha1, ha2⟩, w, hw1, hw2⟩ := i2a
    simp only [List.map_cons, List.cons.injEq] at i3
    have hi3 := NetEvent.flatMap_events i3.2
    have hmade : runServerOp rand .made ⟨[], {}⟩ = (⟨[], { connected := true }⟩, [.write (ascii "++\r\n")]) := by rfl
    have hwire : chunks.flatten = [0x2b] ++ ([0x2b] ++ ([0x0d, 0x0a] ++ ((chatter c1 c2 c3 ++ i.2) ++ (items.map (·.2)).flatten))) := by
      rw [hch, pciHistory, List.cons_append, runServerOps, hmade]
      simp only
      rw [runServerOps_append, g1, i1]
      rw [wireOf_append, wireOf_append, g5, wireOf_lines, List.map_cons, List.flatten_cons]
      simp [wireOf, show ascii "++\r\n" = [0x2b, 0x2b, 0x0d, 0x0a] by decide]
    have hup : Up (Client.connectionMade (π := π) cl).1 := by
      rw [h2]; exact ⟨rfl, Nat.mod_lt _ (by decide)⟩
    have hhex : ∀ c ∈ w, IsUpperHex c := by
      obtain ⟨ab, b, e1, -⟩ := pm_encode i.1 hpm
      simp only [Packet.encodePacket, e1, bind, Except.bind, pure, Except.pure, Except.ok.injEq] at hw1
      rw [← hw1]
      exact b16encode_upper _
    obtain ⟨s', o', r1, r2, r3⟩ := client_run (π := π) now hnow 100
      (([0x2b], some .powerOn) :: ([0x2b], some .powerOn) :: ([0x0d, 0x0a], none) ::
        (chatter c1 c2 c3 ++ i.2, some (.invalid (chatter c1 c2 c3 ++ w) .valueError)) ::
        items.map fun i => (i.2, some (.pm { i.1 with sals := i.1.sals.map received, conf := none })))
      _ hup (by
        intro j hj
        simp only [List.mem_cons, List.mem_map] at hj
        rcases hj with rfl | rfl | rfl | rfl | ⟨m, hm, rfl⟩
        · exact ⟨by simp, by simp, fun rest => rfl⟩
        · exact ⟨by simp, by simp, fun rest => rfl⟩
        · refine ⟨by simp, by simp, fun rest => ?_⟩
          have := framePci_line [] rest (by simp) (by simp)
          simp only [List.nil_append] at this
          simp [decodePacket, this, decodeLine]
        · refine ⟨by simp [chatter], ?_, fun rest => ?_⟩
          · simp [chatter, ascii]; omega
          · have := chatter_line cl.nextConf hk c1 c2 c3 h1 w rest hhex
            simp only [hw2, List.append_assoc, List.cons_append, List.nil_append, List.length_append, List.length_cons,
              List.length_nil] at this ⊢
            rw [this]
            simp [Nat.add_assoc]
        · obtain ⟨m1, m2⟩ := i2 m (by simp [hm])
          have := eventLine_lineFor m1
          exact ⟨this.1, by simp only; omega, this.2⟩)
    have hflat : chunks.flatten = ((([0x2b], some Packet.powerOn) :: ([0x2b], some .powerOn) :: ([0x0d, 0x0a], none) ::
        (chatter c1 c2 c3 ++ i.2, some (.invalid (chatter c1 c2 c3 ++ w) .valueError)) ::
        items.map fun i => (i.2, some (.pm { i.1 with sals := i.1.sals.map received, conf := none }))).map (·.1)).flatten := by
      rw [hwire]
      simp [Function.comp_def]
    rw [← hflat] at r1
    have := Run.feed (clientChunkable (Client.baseHook now)) (by decide) maxBufferSize chunks o' r1 hf
    simp only
    rw [this]
    refine ⟨rfl, rfl, ?_⟩
    rw [r3, ← hi3]
    simp [packetEvents, List.flatMap_map]

/-- C57 is false: whatever the first network event that a fresh simulated PCI reports
after a client has connected, the client's handlers are not called, for any chopping.
The bytes echoed before the PCI leaves basic mode contain no CRLF, so the client
takes them and the first report for one malformed line. -/
theorem C57_false (rand : Nat → Int) (now : Nat → PyDateTime) (hnow : ∀ n, DateTimeOk (now n)) (cl : Client)
    (hk : cl.nextConf < 20) (pieces : List Bytes)
    (hp : pieces.flatten = (writesOf (Client.connectionMade (π := π) cl).2.1).flatten)
    (hpf : Fits maxBufferSize (Server.handle rand) pieces ⟨[], { connected := true }⟩)
    (e : NetEvent) (hok : e.Ok) (chunks : List Bytes)
    (hch : chunks.flatten = wireOf (runServerOps rand (pciHistory pieces [e]) ⟨[], {}⟩).2)
    (hf : Fits maxBufferSize (Client.handle (π := π) (Client.baseHook now)) chunks
      ⟨[], (Client.connectionMade (π := π) cl).1⟩) :
    eventsOf (feed maxBufferSize (Client.handle (π := π) (Client.baseHook now)) chunks
      ⟨[], (Client.connectionMade (π := π) cl).1⟩).2.1 = [] :=
  (C57_later_partial rand now hnow cl hk pieces hp hpf e [] (by simpa using hok) chunks hch hf).2.2

/-- A fresh client and a fresh simulated PCI: of two events only the second arrives. -/
example :
    let now : Nat → PyDateTime := fun _ => ⟨⟨2024, 2, 29⟩, ⟨13, 1, 2, 0⟩⟩
    let cl := (Client.connectionMade (π := Nat) {})
    let w := wireOf (runServerOps (fun _ => 1) (pciHistory [(writesOf cl.2.1).flatten] [.on 5 1, .off 5 1]) ⟨[], {}⟩).2
    w = ascii "++\r\n~\r~\r~\rA3210038h\rh.A342000Ei\ri.A3300059j\rj.05053800790144\r\n050538000101BC\r\n" ∧
    eventsOf (feed maxBufferSize (Client.handle (π := Nat) (Client.baseHook now)) [w] ⟨[], cl.1⟩).2.1 =
      [.lightingOff (some 5) 1] := by decide +kernel

end CBus.Props
