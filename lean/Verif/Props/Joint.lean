import Verif.Props.EndToEnd

/-! # C88: a client and a simulated PCI that talk at the same time

C55 and C56 are about one direction each. Here both sides act whenever they like and
the bytes of either direction are delivered in pieces of any size at any time. -/

namespace CBus.Props
open CBus CBus.Spec

/-! ## The two sides and what is under way between them -/

section Link
variable {π α : Type}

/-- A `PCIProtocol`, a `PCIServerProtocol`, the bytes under way in both directions, and
everything the two have done. -/
structure Link (π : Type) where
  client : Conn Client
  server : Conn Server
  up : Bytes := []
  down : Bytes := []
  cOut : List (Eff π) := []
  sOut : List SEff := []

/-- What can happen: the client is made to do something; the simulated PCI is made to
report something; some of the bytes under way arrive. -/
inductive Act (α : Type)
  | call (x : α)
  | report (e : NetEvent)
  | up (n : Nat)
  | down (n : Nat)

/-- What the client writes is sent. -/
def Link.byClient (l : Link π) (r : Conn Client × List (Eff π)) : Link π :=
  { l with
    client := r.1
    up := l.up ++ (writesOf r.2).flatten
    cOut := l.cOut ++ r.2 }

/-- What the server writes is sent. -/
def Link.byServer (l : Link π) (r : Conn Server × List SEff) : Link π :=
  { l with
    server := r.1
    down := l.down ++ wireOf r.2
    sOut := l.sOut ++ r.2 }

/-- `perform` says what the client does when it is made to do something; `hook` are its
event handlers. Exceptions do not stop anything. -/
def Link.step (hook : Event → Proc Client (Eff π) Unit) (perform : α → Proc Client (Eff π) Unit) (rand : Nat → Int)
    (l : Link π) : Act α → Link π
  | .call x => l.byClient (onConn (perform x) l.client)
  | .report e => l.byServer (runServerOp rand e.op l.server)
  | .up n => { l with up := l.up.drop n }.byServer (runServerOp rand (.receive (l.up.take n)) l.server)
  | .down n =>
    let r := Client.dataReceived hook (l.down.take n) l.client
    { l with down := l.down.drop n }.byClient (r.1, r.2.1)

def Link.run (hook : Event → Proc Client (Eff π) Unit) (perform : α → Proc Client (Eff π) Unit) (rand : Nat → Int) (l : Link π)
    (acts : List (Act α)) : Link π :=
  acts.foldl (Link.step hook perform rand) l

/-- The calls to which the actions amount. -/
def callsOf (callOf : α → Option ClientCall) (acts : List (Act α)) : List ClientCall :=
  acts.filterMap fun a => match a with
    | .call x => callOf x
    | _ => none

/-- The reports among the actions. -/
def reportsOf (acts : List (Act α)) : List NetEvent :=
  acts.filterMap fun a => match a with
    | .report e => some e
    | _ => none

/-- What the client was made to do. -/
def doneOf (acts : List (Act α)) : List α :=
  acts.filterMap fun a => match a with
    | .call x => some x
    | _ => none

/-- What a subclass of `PCIProtocol` has done beyond C-Bus. -/
def extsOf (o : List (Eff π)) : List π :=
  o.filterMap fun e => match e with
    | .ext x => some x
    | _ => none

theorem extsOf_append (a b : List (Eff π)) : extsOf (a ++ b) = extsOf a ++ extsOf b := by
  simp [extsOf]

/-- Reports the simulated PCI can make, pieces that fit into the receive buffers in any
case. -/
def Act.Ok (P : α → Prop) : Act α → Prop
  | .call x => P x
  | .report e => e.Ok
  | .up n => n ≤ 209
  | .down n => n ≤ 209

/-- The confirmations a client has been told of. -/
def confirmedOf (o : List (Eff π)) : List (Bytes × Bool) :=
  (eventsOf o).filterMap fun e => match e with
    | .confirmation c ok => some (c, ok)
    | _ => none

/-- All the other events. -/
def reportedOf (o : List (Eff π)) : List Event :=
  (eventsOf o).filter fun e => match e with
    | .confirmation _ _ => false
    | _ => true

/-- Calls that set the clock. -/
def SetsClock : ClientCall → Bool
  | .clock _ => true
  | .clockNow => true
  | _ => false

end Link

/-! ## Delivering messages -/

section Deliver
variable {σ ω : Type}

/-- A message that is recognised whatever follows it, in all states of a kind. -/
structure Msg (handle : Bytes → Proc σ ω Int) (G : Bytes → σ → Prop) (M : Nat) (I : σ → Prop) (m : Bytes) : Prop where
  ne : m ≠ []
  len : m.length ≤ M
  guard : ∀ s, I s → ∀ rest, G (m ++ rest) s
  act : ∀ s, I s → ∃ s' o, I s' ∧ ∀ rest, handle (m ++ rest) s = (s', o, .ok (m.length : Int))

/-- Handling some messages. -/
def actAll (handle : Bytes → Proc σ ω Int) : List Bytes → σ → σ × List ω
  | [], s => (s, [])
  | m :: ms, s => ((actAll handle ms (handle m s).1).1, (handle m s).2.1 ++ (actAll handle ms (handle m s).1).2)

theorem deliver {handle : Bytes → Proc σ ω Int} {G : Bytes → σ → Prop} {M : Nat} {I : σ → Prop} (hc : Chunkable handle G)
    (hM : 0 < M) : ∀ (ms : List Bytes), (∀ m ∈ ms, Msg handle G M I m) → ∀ (s : σ), I s → ∀ (x y : Bytes), ms.flatten = x ++ y →
    ∃ done left p, ms = done ++ left ∧ p ++ y = left.flatten ∧ p.length < M ∧ (y = [] → p = []) ∧
      I (actAll handle done s).1 ∧
      processBuffer handle x s = (⟨p, (actAll handle done s).1⟩, (actAll handle done s).2, .ok ()) := by
  intro ms
  induction ms with
  | nil =>
    intro _ s hs x y hxy
    have hx : x = [] := (List.append_eq_nil_iff.1 hxy.symm).1
    have hy : y = [] := (List.append_eq_nil_iff.1 hxy.symm).2
    subst hx; subst hy
    exact ⟨[], [], [], rfl, rfl, hM, fun _ => rfl, hs, processBuffer_nil handle s⟩
  | cons m ms ih =>
    intro hms s hs x y hxy
    obtain ⟨h1, h2, h3, h4⟩ := hms m (by simp)
    obtain ⟨s1, o1, g1, g2⟩ := h4 s hs
    have hm : handle m s = (s1, o1, .ok (m.length : Int)) := by simpa using g2 []
    rw [List.flatten_cons] at hxy
    by_cases hlen : m.length ≤ x.length
    · obtain ⟨x', rfl⟩ : ∃ x', x = m ++ x' := by
        obtain ⟨t, ht⟩ := List.prefix_of_prefix_length_le ⟨ms.flatten, hxy⟩ (List.prefix_append x y) hlen
        exact ⟨t, ht.symm⟩
      rw [List.append_assoc] at hxy
      obtain ⟨done, left, p, e1, e2, e3, e4, e5, e6⟩ := ih (fun k hk => hms k (by simp [hk])) s1 g1 x' y (List.append_cancel_left hxy)
      have hpos : 0 < m.length := List.length_pos_iff.mpr h1
      refine ⟨m :: done, left, p, by rw [e1]; rfl, e2, e3, e4, ?_, ?_⟩
      · simpa only [actAll, hm] using e5
      · rw [processBuffer_step (by simp [h1]) (g2 x') (by omega)]
        simp [e6, actAll, hm]
    · obtain ⟨l', rfl⟩ : ∃ l', m = x ++ l' := by
        obtain ⟨t, ht⟩ := List.prefix_of_prefix_length_le (⟨y, hxy.symm⟩ : x <+: m ++ ms.flatten) (List.prefix_append m ms.flatten) (by omega)
        exact ⟨t, ht.symm⟩
      have hwait : (handle x s).2.2 = .ok 0 := by
        by_cases hz : (handle x s).2.2 = .ok 0
        · exact hz
        · exfalso
          have e1 := hc.stable x l' s (by simpa using h3 s hs []) hz
          rw [hm] at e1
          have e3 := hc.pos x l' s ((x ++ l').length : Int) (by simpa using h3 s hs []) (by rw [← e1])
          omega
      refine ⟨[], (x ++ l') :: ms, x, rfl, by rw [← hxy]; rfl, by omega, ?_, hs, processBuffer_wait (hc.wait x s hwait)⟩
      intro hy
      subst hy
      rw [List.append_nil] at hxy
      have := congrArg List.length hxy
      simp only [List.length_append] at this hlen
      omega

/-- The same for a receiver. -/
theorem deliver_received {handle : Bytes → Proc σ ω Int} {G : Bytes → σ → Prop} {M : Nat} {I : σ → Prop} (hc : Chunkable handle G)
    (hM : 0 < M) (limit : Nat) (ms : List Bytes) (hms : ∀ m ∈ ms, Msg handle G M I m) (c : Conn σ) (hs : I c.st) (chan : Bytes)
    (hch : c.buf ++ chan = ms.flatten) (n : Nat) (hn : c.buf.length + n ≤ limit) :
    ∃ done left p, ms = done ++ left ∧ p ++ chan.drop n = left.flatten ∧ p.length < M ∧ (chan.drop n = [] → p = []) ∧
      I (actAll handle done c.st).1 ∧
      dataReceived limit handle (chan.take n) c = (⟨p, (actAll handle done c.st).1⟩, (actAll handle done c.st).2, .ok ()) := by
  have h1 : ms.flatten = (c.buf ++ chan.take n) ++ chan.drop n := by rw [← hch, List.append_assoc, List.take_append_drop]
  obtain ⟨done, left, p, e1, e2, e3, e4, e5, e6⟩ := deliver hc hM ms hms c.st hs _ _ h1
  refine ⟨done, left, p, e1, e2, e3, e4, e5, ?_⟩
  have h2 : (chan.take n).length ≤ n := by rw [List.length_take]; omega
  unfold dataReceived
  rw [if_neg (by omega), if_neg (by omega)]
  exact e6

end Deliver

/-! ## Towards the server -/

/-- A command under way: the call, the time when it was made, its code. -/
structure Sent where
  call : ClientCall
  time : PyDateTime
  code : UInt8

namespace Sent

def line (a : Sent) : Bytes := 0x5c :: b16encode (addChecksum (a.call.frame a.time PyDate.weekday)) ++ [a.code, 0x0d]

def Ok (a : Sent) : Prop :=
  IsBroadcast a.call ∧ a.call.Ok ∧ a.call.TimeOk ∧ DateTimeOk a.time ∧ a.code ∈ confirmationCodes

end Sent

/-- Something under way to the client. -/
inductive Told
  | conf (c : UInt8)
  | event (e : NetEvent)

namespace NetEvent

/-- The line that reports it. -/
def line (e : NetEvent) : Bytes :=
  match (Packet.pm e.pm).encodePacket with
  | .ok w => w ++ [0x0d, 0x0a]
  | .error _ => []

theorem line_eq {e : NetEvent} {l : Bytes} (h : EventLine e.pm l) : e.line = l := by
  obtain ⟨-, -, -, w, h1, rfl⟩ := h
  unfold line
  rw [h1]

theorem line_ok (e : NetEvent) (h : e.Ok) : EventLine e.pm e.line ∧ e.line.length ≤ 20 := by
  obtain ⟨l, -, h2, h3⟩ := e.send_line h (fun _ => 1) ⟨[], { connected := true, checksum := true }⟩ rfl rfl rfl
  rw [line_eq h2]
  exact ⟨h2, h3⟩

end NetEvent

namespace Told

def bytes : Told → Bytes
  | .conf c => [c, 0x2e]
  | .event e => e.line

def Ok : Told → Prop
  | .conf c => c ∈ confirmationCodes
  | .event e => e.Ok

/-- What the client is to be told. -/
def toEvent : Told → Event
  | .conf c => .confirmation [c] true
  | .event e => e.event

def code : Told → Option UInt8
  | .conf c => some c
  | .event _ => none

def net : Told → Option NetEvent
  | .conf _ => none
  | .event e => some e

def packet : Told → Packet
  | .conf c => .confirmation [c] true
  | .event e => .pm { e.pm with sals := e.pm.sals.map received, conf := none }

theorem lineFor (d : Told) (h : d.Ok) : LineFor d.bytes d.packet ∧ d.bytes.length ≤ 20 := by
  cases d with
  | conf c =>
    refine ⟨⟨by simp [bytes], fun rest => ?_⟩, by simp [bytes]⟩
    obtain ⟨p, w, -, -, h3, h4, h5⟩ := C37_confirmation c h true rest true true
    subst h3; subst h5
    exact h4
  | event e =>
    obtain ⟨h1, h2⟩ := e.line_ok h
    exact ⟨eventLine_lineFor h1, h2⟩

end Told

/-- A simulated PCI between commands, in smart mode with checksums. -/
def Settled (s : Server) : Prop := s.connected = true ∧ s.basic = false ∧ s.checksum = true ∧ s.queue = []

theorem queueRandom_net (rand : Nat → Int) (hr : Server.RandOk rand) (mk : Int → Py SAL) (net : Int → Int → NetEvent)
    (hmk : ∀ g a, IsByte g → mk g = .ok (net a g).sal ∧ (net a g).sal.application = appLighting ∧ (net a g).src = a)
    (hok : ∀ g a, IsByte g → 1 ≤ a → a ≤ 255 → (net a g).Ok) (s : Server) (hcs : s.checksum = true) :
    ∃ e : NetEvent, e.Ok ∧ Server.queueRandom rand mk s =
      ({ s with rngPos := s.rngPos + 2, queue := s.queue ++ [e.line] }, [.queued e.line], .ok ()) := by
  have hb : IsByte (rand s.rngPos) := by have := hr s.rngPos; unfold IsByte; omega
  have ha := hr (s.rngPos + 1)
  obtain ⟨h1, h2, h3⟩ := hmk (rand s.rngPos) (rand (s.rngPos + 1)) hb
  have h4 := hok _ _ hb ha.1 (by omega : rand (s.rngPos + 1) ≤ 255)
  refine ⟨net (rand (s.rngPos + 1)) (rand s.rngPos), h4, ?_⟩
  obtain ⟨⟨-, -, -, w, h5, h6⟩, -⟩ := (net (rand (s.rngPos + 1)) (rand s.rngPos)).line_ok h4
  have h7 : Server.eventPacket s.checksum (mk (rand s.rngPos)) (rand (s.rngPos + 1)) =
      .ok (.pm (net (rand (s.rngPos + 1)) (rand s.rngPos)).pm) := by
    rw [h1, Server.eventPacket_ok, h2, hcs]
    unfold NetEvent.pm
    rw [h3]
  simp only [Server.queueRandom, h7, Server.sendLater, Server.serialize_pm h5, h6]

theorem onClockUpdate_net (rand : Nat → Int) (hr : Server.RandOk rand) (v : ClockVal) (s : Server) (hcs : s.checksum = true) :
    ∃ rs : List NetEvent, (∀ e ∈ rs, e.Ok) ∧ Server.onClockUpdate rand v s =
      ({ s with rngPos := s.rngPos + 4, queue := s.queue ++ rs.map NetEvent.line },
        .event (.clockUpdate v) :: rs.map fun e => .queued e.line, .ok ()) := by
  obtain ⟨e1, g1, h1⟩ := queueRandom_net rand hr mkLightOn .on
    (fun g a hg => ⟨(Server.mkLightOn_spec g hg).1, rfl, rfl⟩) (fun g a hg h1 h2 => ⟨h1, h2, hg⟩) s hcs
  obtain ⟨e2, g2, h2⟩ := queueRandom_net rand hr mkLightOff .off
    (fun g a hg => ⟨(Server.mkLightOff_spec g hg).1, rfl, rfl⟩) (fun g a hg h1 h2 => ⟨h1, h2, hg⟩)
    { s with rngPos := s.rngPos + 2, queue := s.queue ++ [e1.line] } hcs
  refine ⟨[e1, e2], by simp [g1, g2], ?_⟩
  simp only [Server.onClockUpdate, Proc.andThen, Proc.emit, h1, h2]
  simp

/-- Handling the SALs of a call. -/
theorem onSals_net (rand : Nat → Int) (hr : Server.RandOk rand) : ∀ (l : List SAL) (es : List SEvent),
    l.map simpleEvent = es.map some → ∀ s : Server, s.checksum = true →
    ∃ (n : Nat) (rs : List NetEvent) (o : List SEff), (∀ e ∈ rs, e.Ok) ∧
      Server.onSals rand l s = ({ s with rngPos := n, queue := s.queue ++ rs.map NetEvent.line }, o, .ok true) ∧
      sEventsOf o = es ∧ wireOf o = [] ∧ ((∀ v, SAL.clockUpdate v ∉ l) → rs = []) := by
  intro l
  induction l with
  | nil =>
    intro es h s _
    have : es = [] := by simpa using h
    subst this
    exact ⟨s.rngPos, [], [], by simp, by simp [Server.onSals, pure], rfl, rfl, fun _ => rfl⟩
  | cons x l ih =>
    intro es h s hcs
    cases es with
    | nil => simp at h
    | cons e es =>
      simp only [List.map_cons, List.cons.injEq] at h
      have hone : ∃ (n : Nat) (rs : List NetEvent) (o : List SEff), (∀ e ∈ rs, e.Ok) ∧
          Server.onSal rand x s = ({ s with rngPos := n, queue := s.queue ++ rs.map NetEvent.line }, o, .ok true) ∧
          sEventsOf o = [e] ∧ wireOf o = [] ∧ ((∀ v, SAL.clockUpdate v ≠ x) → rs = []) := by
        have hx := h.1
        cases x with
        | clockUpdate v =>
          simp only [simpleEvent, Option.some.injEq] at hx
          subst hx
          obtain ⟨rs, g1, g2⟩ := onClockUpdate_net rand hr v s hcs
          have he : Server.onSal rand (.clockUpdate v) s = Proc.andThen (Server.onClockUpdate rand v) (fun _ => pure true) s := rfl
          refine ⟨_, rs, _, g1, by rw [he, andThen_ok g2]; rfl, ?_, ?_, fun h => absurd rfl (h v)⟩
          · simp [sEventsOf, pure]
          · simp [wireOf, pure]
        | lightOn | lightOff | lightTerminate | lightRamp =>
          simp only [simpleEvent, Option.some.injEq] at hx
          subst hx
          exact ⟨s.rngPos, [], _, by simp, by simp [Server.onSal, Proc.andThen, Proc.emit, pure]; rfl, rfl, rfl, fun _ => rfl⟩
        | _ => simp [simpleEvent] at hx
      obtain ⟨n1, rs1, o1, a1, a2, a3, a4, a5⟩ := hone
      obtain ⟨n2, rs2, o2, b1, b2, b3, b4, b5⟩ := ih es h.2 { s with rngPos := n1, queue := s.queue ++ rs1.map NetEvent.line } hcs
      have he : Server.onSals rand (x :: l) s = Proc.andThen (Server.onSal rand x)
          (fun go => if go then Server.onSals rand l else pure false) s := rfl
      refine ⟨n2, rs1 ++ rs2, o1 ++ o2, ?_, ?_, ?_, ?_, ?_⟩
      · intro e he
        rcases List.mem_append.1 he with he | he
        · exact a1 e he
        · exact b1 e he
      · rw [he, andThen_ok a2]
        simp only [if_true, b2]
        simp
      · rw [sEventsOf_append, a3, b3]; rfl
      · rw [wireOf_append, a4, b4]; rfl
      · intro hv
        rw [a5 (fun v hx => hv v (by rw [hx]; simp)), b5 (fun v hx => hv v (by simp [hx]))]
        rfl

theorem callSals_clock {now : PyDateTime} {call : ClientCall} (h : SetsClock call = false) :
    ∀ v, SAL.clockUpdate v ∉ (callSals now call).map received := by
  intro v hv
  cases call with
  | clock | clockNow => simp [SetsClock] at h
  | on g | off g | terminate g =>
    simp only [callSals, List.map_map, List.mem_map, Function.comp_apply] at hv
    obtain ⟨a, -, ha⟩ := hv
    simp [received] at ha
  | ramp => simp [callSals, received] at hv
  | identify => simp [callSals] at hv

/-- The simulated PCI handles a command: the events, then the confirmation, then (only
after a clock update) some events of its own invention. -/
theorem server_call (rand : Nat → Int) (hr : Server.RandOk rand) (a : Sent) (ha : a.Ok) (s : Server) (hs : Settled s) :
    ∃ (s' : Server) (o : List SEff) (rs : List NetEvent), Settled s' ∧
      (∀ rest, Server.handle rand (a.line ++ rest) s = (s', o, .ok (a.line.length : Int))) ∧
      (∀ rest, ServerG (a.line ++ rest) s) ∧
      sEventsOf o = callEvents a.time a.call ∧ (∀ e ∈ rs, e.Ok) ∧ (SetsClock a.call = false → rs = []) ∧
      wireOf o = ((Told.conf a.code :: rs.map .event).map Told.bytes).flatten := by
  obtain ⟨hb, hok, ht, htm, hcode⟩ := ha
  obtain ⟨hc, hba, hcs, hq⟩ := hs
  obtain ⟨app, h1, h2, h3⟩ := call_packet a.time htm PyDate.weekday (fun d hd => isWeekday_weekday d hd) a.call hb hok ht
  obtain ⟨w, e1, e2⟩ := C25_command _ h1 rfl
  rw [h2, Except.ok.injEq] at e1
  subst e1
  have hd : ∀ rest, decodePacket (a.line ++ rest) s.checksum true false =
      .ok (some (.pm { app := some app, sals := (callSals a.time a.call).map received, conf := some a.code }), a.line.length) := by
    intro rest
    have := e2 (some a.code) rest true (by intro x hx; cases hx; exact hcode)
    rw [hcs]
    unfold Sent.line
    simp only [Option.toList_some, List.cons_append, List.append_assoc, List.nil_append, List.length_cons, List.length_nil,
      List.length_append] at this ⊢
    rw [this]
    congr 3
    omega
  obtain ⟨n, rs, o, g1, g2, g3, g4, g5⟩ := onSals_net rand hr ((callSals a.time a.call).map received) (callEvents a.time a.call)
    (callSals_events a.time a.call) s hcs
  have hpos : 0 < a.line.length := by simp [Sent.line]
  have hconf := Server.sendConfirmation_eq hcode true
    { s with rngPos := n, queue := rs.map NetEvent.line } hc
  rw [hq, List.nil_append] at g2
  refine ⟨{ s with rngPos := n, queue := [] }, o ++ (.write [a.code, 0x2e] :: (rs.map NetEvent.line).map .write), rs, ⟨hc, hba, hcs, rfl⟩,
    ?_, ?_, ?_, g1, fun hk => g5 (callSals_clock hk), ?_⟩
  · intro rest
    have hecho : Server.echo a.line s = (s, [], .ok ()) := by simp [Server.echo, hba]
    have hp : Server.onPacket rand (.pm { app := some app, sals := (callSals a.time a.call).map received, conf := some a.code }) s =
        ({ s with rngPos := n, queue := [] }, o ++ (.write [a.code, 0x2e] :: (rs.map NetEvent.line).map .write), .ok ()) := by
      have he : Server.onPacket rand (.pm { app := some app, sals := (callSals a.time a.call).map received, conf := some a.code }) s =
        Proc.andThen (Server.onSals rand ((callSals a.time a.call).map received))
          (fun go => if go then Server.confirm (some a.code) else pure ()) s := rfl
      rw [he, andThen_ok g2]
      simp only [if_true, Server.confirm, hconf]
    simp only [Server.handle, handleData, Bool.not_true, hd rest, hpos, and_self, if_true, List.take_left]
    rw [andThen_ok hecho, andThen_ok hp]
    simp [pure]
  · intro rest _ x m h
    rw [hd rest] at h
    simp at h
  · rw [sEventsOf_append, g3]
    have : sEventsOf (SEff.write [a.code, 0x2e] :: (rs.map NetEvent.line).map .write) = [] := sEventsOf_map_write (rs.map NetEvent.line)
    rw [this, List.append_nil]
  · rw [wireOf_append, g4]
    have : wireOf (SEff.write [a.code, 0x2e] :: (rs.map NetEvent.line).map .write) =
        [a.code, 0x2e] ++ (rs.map NetEvent.line).flatten := by
      have := wireOf_map_write ([a.code, 0x2e] :: rs.map NetEvent.line)
      simpa using this
    rw [this]
    simp [Told.bytes, Function.comp_def]

theorem sent_msg (rand : Nat → Int) (hr : Server.RandOk rand) (a : Sent) (ha : a.Ok) :
    Msg (Server.handle rand) ServerG 47 Settled a.line where
  ne := by simp [Sent.line]
  len := by
    obtain ⟨hb, hok, ht, htm, -⟩ := ha
    obtain ⟨app, -, -, h3⟩ := call_packet a.time htm PyDate.weekday (fun d hd => isWeekday_weekday d hd) a.call hb hok ht
    unfold Sent.line
    simp only [List.length_append, List.length_cons, List.length_nil, b16encode_length, addChecksum]
    omega
  guard := fun s hs => (server_call rand hr a ha s hs).choose_spec.choose_spec.choose_spec.2.2.1
  act := fun s hs => by
    obtain ⟨s', o, rs, h1, h2, -⟩ := server_call rand hr a ha s hs
    exact ⟨s', o, h1, h2⟩

/-- Several commands. -/
theorem server_calls (rand : Nat → Int) (hr : Server.RandOk rand) : ∀ (as : List Sent), (∀ a ∈ as, a.Ok) → ∀ (s : Server), Settled s →
    ∃ ds : List Told, (∀ d ∈ ds, d.Ok) ∧
      sEventsOf (actAll (Server.handle rand) (as.map Sent.line) s).2 = as.flatMap (fun a => callEvents a.time a.call) ∧
      wireOf (actAll (Server.handle rand) (as.map Sent.line) s).2 = (ds.map Told.bytes).flatten ∧
      ds.filterMap Told.code = as.map Sent.code ∧ ((∀ a ∈ as, SetsClock a.call = false) → ds.filterMap Told.net = []) := by
  intro as
  induction as with
  | nil => intro _ s _; exact ⟨[], by simp, rfl, rfl, rfl, fun _ => rfl⟩
  | cons a as ih =>
    intro hok s hs
    obtain ⟨s', o, rs, h1, h2, -, h3, h4, h5, h6⟩ := server_call rand hr a (hok a (by simp)) s hs
    have he : Server.handle rand a.line s = (s', o, .ok (a.line.length : Int)) := by simpa using h2 []
    obtain ⟨ds, g1, g2, g3, g4, g5⟩ := ih (fun b hb => hok b (by simp [hb])) s' h1
    refine ⟨(.conf a.code :: rs.map .event) ++ ds, ?_, ?_, ?_, ?_, ?_⟩
    · intro d hd
      simp only [List.mem_append, List.mem_cons, List.mem_map] at hd
      rcases hd with (rfl | ⟨e, he, rfl⟩) | hd
      · exact (hok a (by simp)).2.2.2.2
      · exact h4 e he
      · exact g1 d hd
    · simp only [List.map_cons, actAll, he, sEventsOf_append, h3, g2, List.flatMap_cons]
    · simp only [List.map_cons, actAll, he, wireOf_append, h6, g3, List.map_append, List.flatten_append]
    · have : (rs.map Told.event).filterMap Told.code = [] := by
        simp only [List.filterMap_map, List.filterMap_eq_nil_iff]
        intro e _
        rfl
      simp only [List.filterMap_append, List.filterMap_cons, Told.code, g4, List.map_cons]
      rw [this]
      rfl
    · intro hk
      have hrs := h5 (hk a (by simp))
      subst hrs
      simp only [List.map_nil, List.cons_append, List.nil_append, List.filterMap_cons, Told.net]
      exact g5 (fun b hb => hk b (by simp [hb]))

/-! ## Towards the client -/

variable {π α : Type}

/-- A subclass of `PCIProtocol` whose handlers take what the simulated PCI reports
without an exception, without writing and without changing the object, in all states
`I`, but may do something else for each of them. -/
structure Steady (hook : Event → Proc Client (Eff π) Unit) (heard : Event → List π) (I : Client → Prop) : Prop where
  up : ∀ s, I s → Up s
  counters : ∀ s n k, I s → n < 20 → I { s with nextConf := n, clockReads := k }
  told : ∀ (d : Told), d.Ok → ∀ s, I s → ∃ o, hook d.toEvent s = (s, o, .ok ()) ∧
    eventsOf o = [] ∧ writesOf o = [] ∧ extsOf o = heard d.toEvent

theorem client_told {hook : Event → Proc Client (Eff π) Unit} {heard : Event → List π} {I : Client → Prop}
    (hh : Steady hook heard I) (d : Told) (hd : d.Ok)
    (s : Client) (hs : I s) :
    ∃ o, (∀ rest, Client.handle hook (d.bytes ++ rest) s = (s, o, .ok (d.bytes.length : Int))) ∧
      eventsOf o = [d.toEvent] ∧ writesOf o = [] ∧ extsOf o = heard d.toEvent := by
  obtain ⟨o, h1, h2, h3, h6⟩ := hh.told d hd s hs
  have hcall : Client.call hook d.toEvent s = (s, .event d.toEvent :: o, .ok ()) := by
    simp [Client.call, Proc.andThen, Proc.emit, h1]
  have hp : Client.onPacket hook d.packet s = (s, .event d.toEvent :: o, .ok ()) := by
    cases d with
    | conf c => exact hcall
    | event e =>
      have he : Client.onPacket hook (Told.event e).packet s =
          Proc.andThen (Client.call hook (Told.event e).toEvent) (fun _ => pure ()) s := by cases e <;> rfl
      rw [he, andThen_ok hcall]
      simp [pure]
  obtain ⟨⟨h4, h5⟩, -⟩ := d.lineFor hd
  refine ⟨.event d.toEvent :: o, ?_, ?_, ?_, h6⟩
  · intro rest
    unfold Client.handle handleData
    rw [show (!false) = true from rfl, h5 rest]
    simp [Proc.andThen, pure, hp]
  · have : eventsOf (Eff.event d.toEvent :: o) = d.toEvent :: eventsOf o := rfl
    rw [this, h2]
  · have : writesOf (Eff.event d.toEvent :: o) = writesOf o := rfl
    rw [this, h3]

abbrev ClientG : Bytes → Client → Prop := fun b s => false = true → NoBareCal (fun _ : Client => true) b s

theorem told_msg {hook : Event → Proc Client (Eff π) Unit} {heard : Event → List π} {I : Client → Prop}
    (hh : Steady hook heard I) (d : Told) (hd : d.Ok)
    (s₀ : Client) (hs₀ : I s₀) : Msg (Client.handle hook) ClientG 20 (fun s => s = s₀) d.bytes where
  ne := (d.lineFor hd).1.1
  len := (d.lineFor hd).2
  guard := fun _ _ _ h => absurd h (by decide)
  act := fun s hs => by
    subst hs
    obtain ⟨o, h1, -⟩ := client_told hh d hd s hs₀
    exact ⟨s, o, rfl, h1⟩

theorem client_tolds {hook : Event → Proc Client (Eff π) Unit} {heard : Event → List π} {I : Client → Prop}
    (hh : Steady hook heard I) (s : Client) (hs : I s) :
    ∀ (ds : List Told), (∀ d ∈ ds, d.Ok) →
      (actAll (Client.handle hook) (ds.map Told.bytes) s).1 = s ∧
      eventsOf (actAll (Client.handle hook) (ds.map Told.bytes) s).2 = ds.map Told.toEvent ∧
      writesOf (actAll (Client.handle hook) (ds.map Told.bytes) s).2 = [] ∧
      extsOf (actAll (Client.handle hook) (ds.map Told.bytes) s).2 = ds.flatMap fun d => heard d.toEvent := by
  intro ds
  induction ds with
  | nil => intro _; exact ⟨rfl, rfl, rfl, rfl⟩
  | cons d ds ih =>
    intro hok
    obtain ⟨o, h1, h2, h3, h4⟩ := client_told hh d (hok d (by simp)) s hs
    have he : Client.handle hook d.bytes s = (s, o, .ok (d.bytes.length : Int)) := by simpa using h1 []
    obtain ⟨g1, g2, g3, g4⟩ := ih (fun b hb => hok b (by simp [hb]))
    refine ⟨?_, ?_, ?_, ?_⟩
    · simp only [List.map_cons, actAll, he, g1]
    · simp only [List.map_cons, actAll, he, eventsOf_append, h2, g2]; rfl
    · simp only [List.map_cons, actAll, he, writesOf_append, h3, g3]; rfl
    · simp only [List.map_cons, actAll, he, extsOf_append, h4, g4, List.flatMap_cons]

/-! ## Both directions -/

/-- How often the calls read the clock. -/
def readings (calls : List ClientCall) : Nat := calls.countP fun c => c = .clockNow

/-- The commands that calls send. -/
def sents (now : Nat → PyDateTime) : Nat → Nat → List ClientCall → List Sent
  | _, _, [] => []
  | k, n, c :: cs =>
    ⟨c, now k, (ascii "hijklmnopqrstuvwxyzg").getD (n % 20) 0⟩ :: sents now (k + if c = .clockNow then 1 else 0) (n + 1) cs

theorem sents_append (now : Nat → PyDateTime) (c : ClientCall) : ∀ (cs : List ClientCall) (k n : Nat),
    sents now k n (cs ++ [c]) =
      sents now k n cs ++ [⟨c, now (k + readings cs), (ascii "hijklmnopqrstuvwxyzg").getD ((n + cs.length) % 20) 0⟩] := by
  intro cs
  induction cs with
  | nil => intro k n; rfl
  | cons d cs ih =>
    intro k n
    simp only [List.cons_append, sents, ih, readings, List.countP_cons, List.length_cons, decide_eq_true_eq]
    rw [show k + (if d = ClientCall.clockNow then 1 else 0) + List.countP (fun c => decide (c = .clockNow)) cs =
      k + (List.countP (fun c => decide (c = .clockNow)) cs + if d = ClientCall.clockNow then 1 else 0) by omega,
      show n + 1 + cs.length = n + (cs.length + 1) by omega]

theorem sents_events (now : Nat → PyDateTime) : ∀ (cs : List ClientCall) (k n : Nat),
    ((sents now k n cs).flatMap fun a => callEvents a.time a.call) = sessionEvents now k cs := by
  intro cs
  induction cs with
  | nil => intro k n; rfl
  | cons c cs ih => intro k n; simp only [sents, List.flatMap_cons, ih, sessionEvents]

theorem sents_call (now : Nat → PyDateTime) : ∀ (cs : List ClientCall) (k n : Nat),
    (sents now k n cs).map Sent.call = cs := by
  intro cs
  induction cs with
  | nil => intro k n; rfl
  | cons c cs ih => intro k n; simp only [sents, List.map_cons, ih]

theorem sents_code (now : Nat → PyDateTime) : ∀ (cs : List ClientCall) (k n : Nat),
    (sents now k n cs).map Sent.code = cycleFrom n cs.length := by
  intro cs
  induction cs with
  | nil => intro k n; rfl
  | cons c cs ih =>
    intro k n
    simp only [sents, List.map_cons, ih, cycleFrom, List.length_cons, List.range_succ_eq_map, List.map_map, Nat.add_zero,
      List.cons.injEq, true_and]
    apply List.map_congr_left
    intro i _
    simp only [Function.comp_apply]
    congr 2
    omega

theorem sents_take (now : Nat → PyDateTime) : ∀ (cs : List ClientCall) (k n m : Nat),
    (sents now k n cs).take m = sents now k n (cs.take m) := by
  intro cs
  induction cs with
  | nil => intro k n m; simp [sents]
  | cons c cs ih =>
    intro k n m
    cases m with
    | zero => rfl
    | succ m => simp only [sents, List.take_succ_cons, ih]

/-- What a client is made to do amounts to the given calls, or to nothing, apart from
what is done beyond C-Bus. -/
structure Performs (perform : α → Proc Client (Eff π) Unit) (callOf : α → Option ClientCall) (spoke : α → List π) (P : α → Prop)
    (I : Client → Prop) (now : Nat → PyDateTime) : Prop where
  acceptable : ∀ x k, P x → callOf x = some k → IsBroadcast k ∧ k.Ok ∧ k.TimeOk
  made : ∀ x k, P x → callOf x = some k → ∀ s, I s → ∀ c, confirmationCodes[s.nextConf]? = some c →
    (perform x s).1 = { s with nextConf := (s.nextConf + 1) % 20, clockReads := s.clockReads + if k = .clockNow then 1 else 0 } ∧
    writesOf (perform x s).2.1 = [(⟨k, now s.clockReads, c⟩ : Sent).line] ∧ eventsOf (perform x s).2.1 = []
  said : ∀ x, P x → ∀ s, I s → extsOf (perform x s).2.1 = spoke x
  ignored : ∀ x, P x → callOf x = none → ∀ s, I s →
    (perform x s).1 = s ∧ writesOf (perform x s).2.1 = [] ∧ eventsOf (perform x s).2.1 = []

/-- The things done beyond C-Bus are exactly those for what the client was made to do and
those for the events it was told of, in the order of both. -/
def Logged (heard : Event → List π) (spoke : α → List π) (did : List α) (events : List Event) (exts : List π) : Prop :=
  ∃ log : List (α ⊕ Event), exts = log.flatMap (Sum.elim spoke heard) ∧ log.filterMap Sum.getLeft? = did ∧
    log.filterMap Sum.getRight? = events

theorem Logged.act {heard : Event → List π} {spoke : α → List π} {did : List α} {events : List Event} {exts : List π}
    (h : Logged heard spoke did events exts) (x : α) : Logged heard spoke (did ++ [x]) events (exts ++ spoke x) := by
  obtain ⟨log, h1, h2, h3⟩ := h
  refine ⟨log ++ [.inl x], ?_, ?_, ?_⟩ <;> simp [h1, h2, h3]

theorem Logged.events {heard : Event → List π} {spoke : α → List π} {did : List α} {events : List Event} {exts : List π}
    (h : Logged heard spoke did events exts) (es : List Event) :
    Logged heard spoke did (events ++ es) (exts ++ es.flatMap heard) := by
  obtain ⟨log, h1, h2, h3⟩ := h
  refine ⟨log ++ es.map .inr, ?_, ?_, ?_⟩
  · rw [List.flatMap_append, ← h1, List.flatMap_map]; rfl
  · simp [h2, List.filterMap_map, Function.comp_def]
  · rw [List.filterMap_append, h3, List.filterMap_map]
    congr 1
    exact List.filterMap_some

/-- What holds at any time. -/
def Joint (heard : Event → List π) (spoke : α → List π) (I : Client → Prop) (now : Nat → PyDateTime) (n₀ k₀ : Nat)
    (did : List α) (calls : List ClientCall) (reps : List NetEvent) (l : Link π) : Prop :=
  ∃ (past as : List Sent) (seen ds : List Told),
    sents now k₀ n₀ calls = past ++ as ∧ (∀ a ∈ as, a.Ok) ∧ (∀ d ∈ ds, d.Ok) ∧
    I l.client.st ∧ l.client.st.nextConf = (n₀ + calls.length) % 20 ∧ l.client.st.clockReads = k₀ + readings calls ∧
    Settled l.server.st ∧
    l.server.buf ++ l.up = (as.map Sent.line).flatten ∧ l.server.buf.length < 47 ∧ (l.up = [] → l.server.buf = []) ∧
    l.client.buf ++ l.down = (ds.map Told.bytes).flatten ∧ l.client.buf.length < 20 ∧ (l.down = [] → l.client.buf = []) ∧
    sEventsOf l.sOut = (past.flatMap fun a => callEvents a.time a.call) ∧ eventsOf l.cOut = seen.map Told.toEvent ∧
    (seen ++ ds).filterMap Told.code = past.map Sent.code ∧
    List.Sublist reps ((seen ++ ds).filterMap Told.net) ∧
    ((∀ c ∈ calls, SetsClock c = false) → reps = (seen ++ ds).filterMap Told.net) ∧
    Logged heard spoke did (eventsOf l.cOut) (extsOf l.cOut)

theorem map_split {α β : Type} {f : α → β} {l : List α} {a b : List β} (h : l.map f = a ++ b) :
    ∃ l1 l2, l = l1 ++ l2 ∧ l1.map f = a ∧ l2.map f = b := by
  obtain ⟨l1, l2, h1, h2, h3⟩ := List.map_eq_append_iff.1 h
  exact ⟨l1, l2, h1, h2, h3⟩

theorem joint_step {hook : Event → Proc Client (Eff π) Unit} {heard : Event → List π} {I : Client → Prop}
    (hh : Steady hook heard I) (now : Nat → PyDateTime)
    (hnow : ∀ n, DateTimeOk (now n)) {perform : α → Proc Client (Eff π) Unit} {callOf : α → Option ClientCall}
    {spoke : α → List π} {P : α → Prop} (hp : Performs perform callOf spoke P I now) (rand : Nat → Int) (hr : Server.RandOk rand) (n₀ k₀ : Nat) (did : List α)
    (calls : List ClientCall) (reps : List NetEvent) (l : Link π) (h : Joint heard spoke I now n₀ k₀ did calls reps l) (a : Act α) (ha : a.Ok P) :
    Joint heard spoke I now n₀ k₀ (did ++ doneOf [a]) (calls ++ callsOf callOf [a]) (reps ++ reportsOf [a]) (l.step hook perform rand a) := by
  obtain ⟨past, as, seen, ds, h1, h2, h3, h4, h5, h6, h7, h8, h9, h10, h11, h12, h13, h14, h15, h16, h17, h18, h19⟩ := h
  cases a with
  | call x =>
    have hup := hh.up _ h4
    cases hx : callOf x with
    | none =>
      obtain ⟨p1, p2, p3⟩ := hp.ignored x ha hx l.client.st h4
      have e1 : callsOf callOf [Act.call x] = [] := by simp [callsOf, hx]
      have e2 : reportsOf [Act.call x] = [] := rfl
      have e3 : l.step hook perform rand (.call x) = { l with cOut := l.cOut ++ (perform x l.client.st).2.1 } := by
        simp only [Link.step, Link.byClient, onConn, p1, p2, List.flatten_nil, List.append_nil]
      rw [e1, e2, e3, List.append_nil, List.append_nil]
      refine ⟨past, as, seen, ds, h1, h2, h3, h4, h5, h6, h7, h8, h9, h10, h11, h12, h13, h14, ?_, h16, h17, h18, ?_⟩
      · rw [eventsOf_append, p3, List.append_nil]
        exact h15
      · rw [eventsOf_append, p3, List.append_nil, extsOf_append, hp.said x ha _ h4]
        exact h19.act x
    | some k =>
      obtain ⟨hb, hok, ht⟩ := hp.acceptable x k ha hx
      obtain ⟨c, hc1, hc2⟩ := code_at hup.2
      obtain ⟨p1, p2, p3⟩ := hp.made x k ha hx l.client.st h4 c hc1
      have h20 : ∀ k : Fin 20, ∀ c, confirmationCodes[k.1]? = some c → (ascii "hijklmnopqrstuvwxyzg").getD k.1 0 = c := by
        decide +kernel
      have hcode : (ascii "hijklmnopqrstuvwxyzg").getD ((n₀ + calls.length) % 20) 0 = c := by
        rw [← h5]; exact h20 ⟨_, hup.2⟩ c hc1
      let y : Sent := ⟨k, now (k₀ + readings calls), c⟩
      have e1 : callsOf callOf [Act.call x] = [k] := by simp [callsOf, hx]
      have e2 : reportsOf [Act.call x] = [] := rfl
      have e3 : l.step hook perform rand (.call x) = { l with
          client := ⟨l.client.buf, { l.client.st with nextConf := (l.client.st.nextConf + 1) % 20, clockReads := l.client.st.clockReads + if k = .clockNow then 1 else 0 }⟩
          up := l.up ++ y.line
          cOut := l.cOut ++ (perform x l.client.st).2.1 } := by
        simp only [Link.step, Link.byClient, onConn, p1, p2, List.flatten_cons, List.flatten_nil, List.append_nil, h6, y]
      rw [e1, e2, e3, List.append_nil]
      refine ⟨past, as ++ [y], seen, ds, ?_, ?_, h3, ?_, ?_, ?_, h7, ?_, h9, ?_, h11, h12, h13, h14, ?_, h16, h17, ?_, ?_⟩
      · rw [sents_append, h1, hcode, List.append_assoc]
      · intro b hb'
        rcases List.mem_append.1 hb' with hb' | hb'
        · exact h2 b hb'
        · rw [List.mem_singleton] at hb'
          subst hb'
          exact ⟨hb, hok, ht, hnow _, hc2⟩
      · exact hh.counters _ _ _ h4 (Nat.mod_lt _ (by decide))
      · simp only [h5, List.length_append, List.length_cons, List.length_nil]
        omega
      · simp only [h6, readings, List.countP_append, List.countP_cons, List.countP_nil, decide_eq_true_eq]
        omega
      · simp only
        rw [← List.append_assoc, h8]
        simp
      · intro h
        have := (List.append_eq_nil_iff.1 h).2
        simp [Sent.line] at this
      · simp only [eventsOf_append, h15, p3, List.append_nil]
      · intro hcl
        exact h18 (fun c hc => hcl c (by simp [hc]))
      · simp only [eventsOf_append, p3, List.append_nil, extsOf_append, hp.said x ha _ h4]
        exact h19.act x
  | report e =>
    obtain ⟨w, g1, g2, g3⟩ := e.send_line ha rand l.server h7.1 h7.2.2.1 h7.2.2.2
    have hw := NetEvent.line_eq g2
    subst hw
    refine ⟨past, as, seen, ds ++ [.event e], ?_, h2, ?_, h4, ?_, ?_, ?_, ?_, ?_, ?_, ?_, h12, ?_, ?_, h15, ?_, ?_, ?_, ?_⟩
    · simpa [callsOf] using h1
    · intro d hd
      rcases List.mem_append.1 hd with hd | hd
      · exact h3 d hd
      · rw [List.mem_singleton] at hd
        subst hd
        exact ha
    · simpa [callsOf, Link.step, Link.byServer] using h5
    · simpa [callsOf, Link.step, Link.byServer] using h6
    · simpa only [Link.step, Link.byServer, g1] using h7
    · simpa only [Link.step, Link.byServer, g1] using h8
    · simpa only [Link.step, Link.byServer, g1] using h9
    · simpa only [Link.step, Link.byServer, g1] using h10
    · simp only [Link.step, Link.byServer, g1]
      rw [← List.append_assoc, h11]
      simp [wireOf, Told.bytes]
    · simp only [Link.step, Link.byServer, g1]
      intro h
      have hne := (e.line_ok ha).1
      obtain ⟨-, -, -, w, -, hw⟩ := hne
      simp only [wireOf, List.flatMap_cons, List.flatMap_nil, List.append_nil, List.append_eq_nil_iff] at h
      rw [hw] at h
      simp at h
    · simp only [Link.step, Link.byServer, g1, sEventsOf_append, h14]
      simp [sEventsOf]
    · rw [← List.append_assoc, List.filterMap_append, h16]
      simp [Told.code]
    · rw [← List.append_assoc, List.filterMap_append]
      simp only [reportsOf, List.filterMap_cons, List.filterMap_nil, Told.net]
      exact h17.append (List.Sublist.refl _)
    · intro hcl
      rw [← List.append_assoc, List.filterMap_append]
      simp only [reportsOf, List.filterMap_cons, List.filterMap_nil, Told.net]
      rw [← h18 (fun c hc => hcl c (by simp [hc]))]
    · simpa [doneOf, Link.step, Link.byServer] using h19
  | up n =>
    obtain ⟨done, left, p, e1, e2, e3, e4, e5, e6⟩ := deliver_received (M := 47) (I := Settled) (serverChunkable rand) (by decide) maxBufferSize
      (as.map Sent.line) (by
        intro m hm
        obtain ⟨a, ha', rfl⟩ := List.mem_map.1 hm
        exact sent_msg rand hr a (h2 a ha')) l.server h7 l.up h8 n (by
        have : n ≤ 209 := ha
        simp only [maxBufferSize]; omega)
    obtain ⟨as1, as2, rfl, rfl, rfl⟩ := map_split e1
    obtain ⟨ds', f1, f2, f3, f4, f5⟩ := server_calls rand hr as1 (fun a ha => h2 a (by simp [ha])) l.server.st h7
    have hstep : l.step hook perform rand (.up n) = { l with
        up := l.up.drop n
        server := ⟨p, (actAll (Server.handle rand) (as1.map Sent.line) l.server.st).1⟩
        down := l.down ++ (ds'.map Told.bytes).flatten
        sOut := l.sOut ++ (actAll (Server.handle rand) (as1.map Sent.line) l.server.st).2 } := by
      have e7 : Server.dataReceived rand (l.up.take n) l.server = _ := e6
      simp only [Link.step, Link.byServer, runServerOp, e7, f3]
    rw [hstep]
    refine ⟨past ++ as1, as2, seen, ds ++ ds', ?_, fun a ha => h2 a (by simp [ha]), ?_, h4, ?_, ?_, e5, e2, e3, e4, ?_, h12, ?_, ?_, h15,
      ?_, ?_, ?_, ?_⟩
    · simp only [callsOf, List.filterMap_cons, List.filterMap_nil, List.append_nil, h1, List.append_assoc]
    · intro d hd
      rcases List.mem_append.1 hd with hd | hd
      · exact h3 d hd
      · exact f1 d hd
    · simpa [callsOf] using h5
    · simpa [callsOf] using h6
    · simp only [← List.append_assoc, h11, List.map_append, List.flatten_append]
    · intro h
      exact h13 (List.append_eq_nil_iff.1 h).1
    · simp only [sEventsOf_append, h14, f2, List.flatMap_append]
    · rw [← List.append_assoc, List.filterMap_append, h16, f4, List.map_append]
    · rw [← List.append_assoc, List.filterMap_append]
      simp only [reportsOf, List.filterMap_cons, List.filterMap_nil, List.append_nil]
      exact h17.trans (List.sublist_append_left _ _)
    · intro hcl
      simp only [callsOf, List.filterMap_cons, List.filterMap_nil, List.append_nil] at hcl
      rw [← List.append_assoc, List.filterMap_append, f5, List.append_nil]
      · simpa [reportsOf] using h18 hcl
      · intro a ha
        apply hcl
        have : a.call ∈ (sents now k₀ n₀ calls).map Sent.call := List.mem_map_of_mem (by rw [h1]; simp [ha])
        rwa [sents_call] at this
    · simpa [doneOf] using h19
  | down n =>
    obtain ⟨done, left, p, e1, e2, e3, e4, e5, e6⟩ := deliver_received (M := 20) (I := fun s => s = l.client.st) (clientChunkable hook) (by decide) maxBufferSize
      (ds.map Told.bytes) (by
        intro m hm
        obtain ⟨d, hd', rfl⟩ := List.mem_map.1 hm
        exact told_msg hh d (h3 d hd') l.client.st h4) l.client rfl l.down h11 n (by
        have : n ≤ 209 := ha
        simp only [maxBufferSize]; omega)
    obtain ⟨ds1, ds2, rfl, rfl, rfl⟩ := map_split e1
    obtain ⟨f1, f2, f3, f4⟩ := client_tolds hh l.client.st h4 ds1 (fun d hd => h3 d (by simp [hd]))
    have hstep : l.step hook perform rand (.down n) = { l with
        down := l.down.drop n
        client := ⟨p, l.client.st⟩
        up := l.up
        cOut := l.cOut ++ (actAll (Client.handle hook) (ds1.map Told.bytes) l.client.st).2 } := by
      have e7 : Client.dataReceived hook (l.down.take n) l.client = _ := e6
      simp only [Link.step, Link.byClient, e7, f3, f1, List.flatten_nil, List.append_nil]
    rw [hstep]
    refine ⟨past, as, seen ++ ds1, ds2, ?_, h2, fun d hd => h3 d (by simp [hd]), h4, ?_, ?_, h7, h8, h9, h10, e2, e3, e4, h14, ?_, ?_, ?_, ?_, ?_⟩
    · simpa [callsOf] using h1
    · simpa [callsOf] using h5
    · simpa [callsOf] using h6
    · simp only [eventsOf_append, h15, f2, List.map_append]
    · rw [List.append_assoc]; exact h16
    · rw [List.append_assoc]; simpa [reportsOf] using h17
    · rw [List.append_assoc]
      intro hcl
      simpa [reportsOf] using h18 (by simpa [callsOf] using hcl)
    · have := h19.events (ds1.map Told.toEvent)
      rw [List.flatMap_map] at this
      simpa only [doneOf, List.filterMap_cons, List.filterMap_nil, List.append_nil, eventsOf_append, extsOf_append, f2, f4] using this

theorem joint_run {hook : Event → Proc Client (Eff π) Unit} {heard : Event → List π} {I : Client → Prop}
    (hh : Steady hook heard I) (now : Nat → PyDateTime)
    (hnow : ∀ n, DateTimeOk (now n)) {perform : α → Proc Client (Eff π) Unit} {callOf : α → Option ClientCall}
    {spoke : α → List π} {P : α → Prop} (hp : Performs perform callOf spoke P I now) (rand : Nat → Int) (hr : Server.RandOk rand) (n₀ k₀ : Nat) :
    ∀ (acts : List (Act α)), (∀ a ∈ acts, a.Ok P) → ∀ (did : List α) (calls : List ClientCall)
    (reps : List NetEvent) (l : Link π), Joint heard spoke I now n₀ k₀ did calls reps l →
    Joint heard spoke I now n₀ k₀ (did ++ doneOf acts) (calls ++ callsOf callOf acts) (reps ++ reportsOf acts) (l.run hook perform rand acts) := by
  intro acts
  induction acts with
  | nil => intro _ did calls reps l h; simpa [callsOf, reportsOf, doneOf, Link.run] using h
  | cons a acts ih =>
    intro hok did calls reps l h
    have h1 := joint_step hh now hnow hp rand hr n₀ k₀ did calls reps l h a (hok a (by simp))
    have h2 := ih (fun b hb => hok b (by simp [hb])) _ _ _ _ h1
    have e1 : callsOf callOf (a :: acts) = callsOf callOf [a] ++ callsOf callOf acts := by
      simp only [callsOf, ← List.filterMap_append, List.cons_append, List.nil_append]
    have e2 : reportsOf (a :: acts) = reportsOf [a] ++ reportsOf acts := by
      simp only [reportsOf, ← List.filterMap_append, List.cons_append, List.nil_append]
    have e3 : doneOf (a :: acts) = doneOf [a] ++ doneOf acts := by
      simp only [doneOf, ← List.filterMap_append, List.cons_append, List.nil_append]
    rw [e1, e2, e3, ← List.append_assoc, ← List.append_assoc, ← List.append_assoc]
    exact h2

theorem seen_confirmed (o : List (Eff π)) (seen : List Told) (h : eventsOf o = seen.map Told.toEvent) :
    confirmedOf o = (seen.filterMap Told.code).map (fun c => ([c], true)) ∧
    reportedOf o = (seen.filterMap Told.net).map NetEvent.event := by
  unfold confirmedOf reportedOf
  rw [h]
  clear h
  induction seen with
  | nil => exact ⟨rfl, rfl⟩
  | cons d seen ih =>
    cases d with
    | conf c =>
      refine ⟨?_, ?_⟩
      · simp only [List.map_cons, Told.toEvent, List.filterMap_cons, Told.code, ih.1]
      · simp only [List.map_cons, Told.toEvent, List.filterMap_cons, Told.net]
        rw [List.filter_cons_of_neg (by simp)]
        exact ih.2
    | event e =>
      cases e <;>
      · refine ⟨?_, ?_⟩
        · simp only [List.map_cons, Told.toEvent, NetEvent.event, List.filterMap_cons, Told.code, ih.1]
        · simp only [List.map_cons, Told.toEvent, NetEvent.event, List.filterMap_cons, Told.net]
          rw [List.filter_cons_of_pos (by simp), ih.2]

/-- C88: connect a client to a simulated PCI that it has set up (smart mode,
checksums on, nothing under way), and let anything happen in any order: calls, reports
and deliveries of bytes in pieces of up to 209. (What the client can be made to do is
left open here: see `C88_client` and `C89_daemon`.) At all times the simulated PCI has
handled an initial part of the calls, and the client has been told of exactly the
confirmations, all positive and in order, of some of those that have been handled.
Once all the bytes to the simulated PCI have been delivered it has handled all calls;
once those to the client have been delivered as well the client has been told of all the
confirmations and all reports. In between there is nothing but what the simulated PCI
itself makes up after clock updates. What is done beyond C-Bus is at all times what is to
be done for the actions so far and the events so far. -/
theorem C88_interleaved {hook : Event → Proc Client (Eff π) Unit} {heard : Event → List π} {I : Client → Prop}
    (hh : Steady hook heard I) (now : Nat → PyDateTime)
    (hnow : ∀ n, DateTimeOk (now n)) {perform : α → Proc Client (Eff π) Unit} {callOf : α → Option ClientCall}
    {spoke : α → List π} {P : α → Prop} (hp : Performs perform callOf spoke P I now) (rand : Nat → Int) (hr : Server.RandOk rand) (c : Client) (hc : I c) (s : Server)
    (hs : Settled s) (acts : List (Act α)) (hok : ∀ a ∈ acts, a.Ok P) :
    let l := Link.run hook perform rand { client := ⟨[], c⟩, server := ⟨[], s⟩ } acts
    let calls := callsOf callOf acts
    sEventsOf l.sOut <+: sessionEvents now c.clockReads calls ∧
    (∃ m, m ≤ calls.length ∧ confirmedOf l.cOut = (cycleFrom c.nextConf m).map (fun x => ([x], true)) ∧
      sessionEvents now c.clockReads (calls.take m) <+: sEventsOf l.sOut) ∧
    (l.up = [] → sEventsOf l.sOut = sessionEvents now c.clockReads calls) ∧
    (l.up = [] → l.down = [] →
      l.server.buf = [] ∧ l.client.buf = [] ∧
      confirmedOf l.cOut = (cycleFrom c.nextConf calls.length).map (fun x => ([x], true)) ∧
      List.Sublist ((reportsOf acts).map NetEvent.event) (reportedOf l.cOut) ∧
      ((∀ k ∈ calls, SetsClock k = false) → reportedOf l.cOut = (reportsOf acts).map NetEvent.event)) ∧
    Logged heard spoke (doneOf acts) (eventsOf l.cOut) (extsOf l.cOut) := by
  intro l calls
  have hj : Joint heard spoke I now c.nextConf c.clockReads [] [] [] ({ client := ⟨[], c⟩, server := ⟨[], s⟩ } : Link π) := by
    refine ⟨[], [], [], [], rfl, by simp, by simp, hc, ?_, rfl, hs, rfl, by simp, fun _ => rfl, rfl, by simp, fun _ => rfl, rfl, rfl,
      rfl, by simp, by simp, [], rfl, rfl, rfl⟩
    have := (hh.up c hc).2
    show c.nextConf = (c.nextConf + 0) % 20
    omega
  have hfin := joint_run hh now hnow hp rand hr c.nextConf c.clockReads acts hok [] [] [] _ hj
  simp only [List.nil_append] at hfin
  obtain ⟨past, as, seen, ds, h1, h2, h3, h4, h5, h6, h7, h8, h9, h10, h11, h12, h13, h14, h15, h16, h17, h18, h19⟩ := hfin
  have hall := sents_events now calls c.clockReads c.nextConf
  have hcodes := sents_code now calls c.clockReads c.nextConf
  rw [h1] at hall hcodes
  obtain ⟨q1, q2⟩ := seen_confirmed _ _ h15
  have hempty : l.up = [] → as = [] := by
    intro hu
    have h8' := h8
    change l.server.buf ++ l.up = _ at h8'
    rw [h10 hu, hu] at h8'
    cases as with
    | nil => rfl
    | cons a as => simp [Sent.line] at h8'
  have hnone : l.down = [] → ds = [] := by
    intro hd
    have h11' := h11
    change l.client.buf ++ l.down = _ at h11'
    rw [h13 hd, hd] at h11'
    cases ds with
    | nil => rfl
    | cons d ds =>
      have := (d.lineFor (h3 d (by simp))).1.1
      simp only [List.nil_append, List.map_cons, List.flatten_cons] at h11'
      exact absurd (List.append_eq_nil_iff.1 h11'.symm).1 this
  refine ⟨?_, ?_, ?_, ?_, h19⟩
  · rw [h14, ← hall, List.flatMap_append]
    exact List.prefix_append _ _
  · have hp : seen.filterMap Told.code <+: past.map Sent.code := by
      rw [← h16, List.filterMap_append]
      exact List.prefix_append _ _
    have hlen : past.length ≤ calls.length := by
      have := congrArg List.length (sents_call now calls c.clockReads c.nextConf)
      rw [h1] at this
      simp only [List.length_map, List.length_append] at this
      omega
    have hm : (seen.filterMap Told.code).length ≤ past.length := by simpa using hp.length_le
    refine ⟨(seen.filterMap Told.code).length, by omega, ?_, ?_⟩
    · rw [q1]
      congr 1
      have h2 : seen.filterMap Told.code <+: cycleFrom c.nextConf calls.length := by
        rw [← hcodes, List.map_append]
        exact hp.trans (List.prefix_append _ _)
      have h3 := List.prefix_iff_eq_take.1 h2
      have h4 := cycleFrom_window c.nextConf calls.length 0 (seen.filterMap Told.code).length (by omega)
      rw [List.drop_zero, Nat.add_zero] at h4
      rw [← h4]
      exact h3
    · rw [h14, ← sents_events now _ c.clockReads c.nextConf, ← sents_take, h1, List.take_append_of_le_length hm]
      obtain ⟨t, ht⟩ := List.take_prefix (seen.filterMap Told.code).length past
      refine ⟨t.flatMap fun a => callEvents a.time a.call, ?_⟩
      rw [← List.flatMap_append, ht]
  · intro hu
    rw [hempty hu, List.append_nil] at hall
    rw [h14, hall]
  · intro hu hd
    have ea := hempty hu
    have ed := hnone hd
    subst ea; subst ed
    rw [List.append_nil] at h16 h17 h18 hcodes
    refine ⟨h10 hu, h13 hd, ?_, ?_, ?_⟩
    · rw [q1, h16, hcodes]
    · rw [q2]
      exact h17.map _
    · intro hk
      rw [q2, ← h18 hk]

/-- A `PCIProtocol` itself. -/
theorem steady_base (now : Nat → PyDateTime) : Steady (π := π) (Client.baseHook now) (fun _ => []) Up where
  up := fun _ h => h
  counters := fun _ _ _ h hn => ⟨h.1, hn⟩
  told := fun d _ s _ => by
    refine ⟨[], ?_, rfl, rfl, rfl⟩
    cases d with
    | conf c => rfl
    | event e => cases e <;> rfl

/-- A method called by the program, which copes with any exception. -/
def performCall (now : Nat → PyDateTime) (k : ClientCall) : Proc Client (Eff π) Unit :=
  Proc.andThen (runCall now k) fun _ => pure ()

/-- Rejected calls have no effect. -/
def acceptedCall (k : ClientCall) : Option ClientCall := if k.Ok then some k else none

/-- Everything but `identify`, to which the simulated PCI never replies. -/
def Plain (k : ClientCall) : Prop := IsBroadcast k ∧ k.TimeOk

theorem performs_calls (now : Nat → PyDateTime) (hnow : ∀ n, DateTimeOk (now n)) :
    Performs (π := π) (performCall now) acceptedCall (fun _ => []) Plain Up now where
  said := fun x hP s hs => by
    by_cases hok : x.Ok
    · obtain ⟨c, hc, -⟩ := code_at hs.2
      have hrun := run_ok (π := π) now PyDate.weekday (fun d hd => isWeekday_weekday d hd) hnow x hok hP.2 s hs.1 c hc
      unfold performCall
      rw [andThen_ok hrun]
      rfl
    · obtain ⟨e, he⟩ := run_bad (π := π) now hnow x hP.2 s (.inl hok)
      unfold performCall
      rw [andThen_error he]
      rfl
  acceptable := fun x k hP hx => by
    unfold acceptedCall at hx
    split at hx
    · injection hx with hx
      subst hx
      exact ⟨hP.1, by assumption, hP.2⟩
    · cases hx
  made := fun x k hP hx s hs c hc => by
    unfold acceptedCall at hx
    split at hx
    · injection hx with hx
      subst hx
      rename_i hok
      have hrun := run_ok (π := π) now PyDate.weekday (fun d hd => isWeekday_weekday d hd) hnow x hok hP.2 s hs.1 c hc
      unfold performCall
      rw [andThen_ok hrun]
      exact ⟨rfl, rfl, rfl⟩
    · cases hx
  ignored := fun x hP hx s hs => by
    unfold acceptedCall at hx
    split at hx
    · cases hx
    · rename_i hok
      obtain ⟨e, he⟩ := run_bad (π := π) now hnow x hP.2 s (.inl hok)
      have hn : x ≠ .clockNow := by
        rintro rfl
        exact hok trivial
      rw [if_neg hn] at he
      unfold performCall
      rw [andThen_error he]
      exact ⟨rfl, rfl, rfl⟩

/-- C88 for a `PCIProtocol` whose methods are called by a program. -/
theorem C88_client (now : Nat → PyDateTime) (hnow : ∀ n, DateTimeOk (now n)) (rand : Nat → Int) (hr : Server.RandOk rand)
    (c : Client) (hc : Up c) (s : Server) (hs : Settled s) (acts : List (Act ClientCall)) (hok : ∀ a ∈ acts, a.Ok Plain) :
    let l := Link.run (π := π) (Client.baseHook now) (performCall now) rand { client := ⟨[], c⟩, server := ⟨[], s⟩ } acts
    let calls := callsOf acceptedCall acts
    sEventsOf l.sOut <+: sessionEvents now c.clockReads calls ∧
    (∃ m, m ≤ calls.length ∧ confirmedOf l.cOut = (cycleFrom c.nextConf m).map (fun x => ([x], true)) ∧
      sessionEvents now c.clockReads (calls.take m) <+: sEventsOf l.sOut) ∧
    (l.up = [] → sEventsOf l.sOut = sessionEvents now c.clockReads calls) ∧
    (l.up = [] → l.down = [] →
      l.server.buf = [] ∧ l.client.buf = [] ∧
      confirmedOf l.cOut = (cycleFrom c.nextConf calls.length).map (fun x => ([x], true)) ∧
      List.Sublist ((reportsOf acts).map NetEvent.event) (reportedOf l.cOut) ∧
      ((∀ k ∈ calls, SetsClock k = false) → reportedOf l.cOut = (reportsOf acts).map NetEvent.event)) := by
  obtain ⟨h1, h2, h3, h4, -⟩ := C88_interleaved (steady_base now) now hnow (performs_calls now hnow) rand hr c hc s hs acts hok
  exact ⟨h1, h2, h3, h4⟩

/-- Everything at once: a call and a report cross, the bytes arrive one or two at a
time. -/
example :
    let now : Nat → PyDateTime := fun _ => ⟨⟨2024, 2, 29⟩, ⟨13, 1, 2, 0⟩⟩
    let acts := [Act.call (.on [1]), .call (.on [256]), .report (.off 5 2), .up 7, .down 10, .call (.off [3]), .up 11, .down 2] ++
      List.replicate 9 (.up 4) ++ [.report (.on 6 9)] ++ List.replicate 20 (.down 2)
    let l := Link.run (π := Nat) (Client.baseHook now) (performCall now) (fun _ => 1) { client := ⟨[], { connected := true }⟩, server := ⟨[], { connected := true, basic := false, checksum := true }⟩ } acts
    (∀ a ∈ acts, a.Ok Plain) ∧ l.up = [] ∧ l.down = [] ∧
    sEventsOf l.sOut = [.lightingOn 1, .lightingOff 3] ∧
    eventsOf l.cOut = [.lightingOff (some 5) 2, .confirmation [0x68] true, .confirmation [0x69] true, .lightingOn (some 6) 9] := by
  refine ⟨?_, by decide +kernel, by decide +kernel, by decide +kernel, by decide +kernel⟩
  intro a ha
  simp only [List.cons_append, List.nil_append, List.mem_cons, List.mem_append, List.mem_replicate, List.not_mem_nil, or_false] at ha
  rcases ha with rfl | rfl | rfl | rfl | rfl | rfl | rfl | rfl | (⟨-, rfl⟩ | rfl) | ⟨-, rfl⟩ <;>
    (first | (show _ ≤ 209; decide) | exact ⟨trivial, trivial⟩ | (unfold Act.Ok; decide))

end CBus.Props
