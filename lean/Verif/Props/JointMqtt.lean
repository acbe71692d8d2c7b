import Verif.Props.Joint
import Verif.Props.Discovery

/-! # C89: cmqttd and a simulated PCI that talk at the same time -/

namespace CBus.Props
open CBus CBus.Spec

/-- What the daemon's surroundings make it do: a message from the broker (and what it
asks for, if anything), the next turn of the clock task, a new connection to the
broker. -/
inductive DaemonOp
  | message (topic : Str) (payload : Bytes) (meaning : Option (Int × SetMessage))
  | tick
  | reconnect (labels : List (Int × Str))

namespace DaemonOp

/-- The code that runs. -/
def perform (u : UniTable) (loads : Bytes → Option JVal) (now : Nat → PyDateTime) : DaemonOp → Mqtt.Act
  | .message topic payload _ => Mqtt.onMessage u loads topic payload
  | .tick => Proc.andThen (Client.clockDatetime now none) fun _ => pure ()
  | .reconnect labels => Mqtt.onConnect labels

/-- The command for the network. -/
def command : DaemonOp → Option ClientCall
  | .message _ _ (some (ga, m)) => some (m.call ga)
  | .message _ _ none => none
  | .tick => some .clockNow
  | .reconnect _ => none

/-- What is sent to the broker at once. -/
def announces : DaemonOp → List MqttEff
  | .message _ _ (some (ga, m)) => m.messages ga
  | .message _ _ none => []
  | .tick => []
  | .reconnect labels =>
    .subscribe (groupAddresses.map fun ga => ((topicText .lightSet ga).toList, 2)) :: metaMessage ::
      groupAddresses.flatMap (configsOf labels)

/-- A message asks for what is claimed: for a command on a group address, or for
nothing, because it is on another topic, is not JSON, or is no message. Messages with a
negative brightness raise, see C61. -/
def Ok (u : UniTable) (loads : Bytes → Option JVal) : DaemonOp → Prop
  | .message topic payload (some (ga, m)) =>
    IsSetTopic u topic ga ∧ (∃ v, loads payload = some v ∧ Means u v m) ∧ (0 ≤ m.brightness ∨ m.on = false)
  | .message topic payload none =>
    (∀ ga, ¬ IsSetTopic u topic ga) ∨ loads payload = none ∨
      (∃ v, loads payload = some v ∧ ((∃ e, MessageError u v e) ∨ ∃ m, Means u v m ∧ m.brightness < 0 ∧ m.on = true))
  | _ => True

end DaemonOp

/-- Connected to the network and to the broker. -/
def Online (s : Client) : Prop := Up s ∧ s.mqttApi = true

theorem extsOf_ext {π : Type} (l : List π) : extsOf (l.map Eff.ext) = l := by
  induction l with
  | nil => rfl
  | cons x l ih => simp only [extsOf, List.map_cons, List.filterMap_cons] at ih ⊢; rw [ih]

theorem messagesOf_eq (o : List (Eff MqttEff)) : messagesOf o = extsOf o := by
  unfold messagesOf extsOf
  congr 1
  funext e
  cases e <;> rfl

theorem steady_daemon (now : Nat → PyDateTime) : Steady (Mqtt.cbusHook now) eventMessages Online where
  up := fun _ h => h.1
  counters := fun _ _ _ h hn => ⟨⟨h.1.1, hn⟩, h.2⟩
  told := fun d _ s hs => by
    refine ⟨(eventMessages d.toEvent).map .ext, ?_, eventsOf_ext _, writesOf_ext _, extsOf_ext _⟩
    rw [C62_event now d.toEvent ?_ s, hs.2, if_pos rfl]
    intro src
    cases d with
    | conf c => intro h; cases h
    | event e => cases e <;> intro h <;> cases h

theorem onMessage_nothing (u : UniTable) (loads : Bytes → Option JVal) (topic : Str) (payload : Bytes)
    (h : (DaemonOp.message topic payload none).Ok u loads) (s : Client) :
    ∃ r, Mqtt.onMessage u loads topic payload s = (s, [], r) := by
  by_cases ht : ∃ ga, IsSetTopic u topic ga
  · obtain ⟨ga, ht⟩ := ht
    rcases h with h | h | ⟨v, hv, h | ⟨m, h1, h2, h3⟩⟩
    · exact absurd ht (h ga)
    · exact ⟨_, C60_ignored u loads topic payload s (.inr h)⟩
    · obtain ⟨e, h⟩ := h
      exact ⟨_, C60_raises u loads topic ga ht payload v hv e h s⟩
    · exact ⟨_, C61_negative u loads topic ga ht payload v hv m h1 h2 h3 s⟩
  · exact ⟨_, C60_ignored u loads topic payload s (.inl (fun ga hg => ht ⟨ga, hg⟩))⟩

theorem call_not_clock (m : SetMessage) (ga : Int) : m.call ga ≠ .clockNow := by
  unfold SetMessage.call
  repeat' split
  all_goals simp

theorem performs_daemon (u : UniTable) (loads : Bytes → Option JVal) (now : Nat → PyDateTime) (hnow : ∀ n, DateTimeOk (now n)) :
    Performs (DaemonOp.perform u loads now) DaemonOp.command DaemonOp.announces (DaemonOp.Ok u loads) Online now where
  acceptable := fun x k hP hx => by
    cases x with
    | message topic payload meaning =>
      cases meaning with
      | none => cases hx
      | some p =>
        obtain ⟨ga, m⟩ := p
        cases hx
        have := call_ok m ga (address_byte hP.1.2.2)
        exact ⟨call_broadcast m ga, this.1, this.2⟩
    | tick => cases hx; exact ⟨trivial, trivial, trivial⟩
    | reconnect labels => cases hx
  made := fun x k hP hx s hs c hc => by
    cases x with
    | message topic payload meaning =>
      cases meaning with
      | none => cases hx
      | some p =>
        obtain ⟨ga, m⟩ := p
        cases hx
        obtain ⟨ht, ⟨v, hv, hm⟩, hb⟩ := hP
        obtain ⟨c', h1, h2⟩ := C60_acts_partial u loads topic ga ht payload v hv m hm hb s hs.1
        obtain ⟨c'', k1, k2⟩ := code_cycle hs.1.2
        have e1 : c' = c := by
          rw [h1] at k2
          rw [hc] at k1
          cases k1; cases k2; rfl
        subst e1
        simp only [DaemonOp.perform, h2, if_neg (call_not_clock m ga), Nat.add_zero, true_and]
        refine ⟨?_, ?_⟩
        · show setLine m ga c' :: writesOf ((m.messages ga).map Eff.ext) = _
          rw [writesOf_ext]
          unfold setLine Sent.line
          rw [call_frame m ga someTime (now s.clockReads) PyDate.weekday PyDate.weekday]
        · show eventsOf ((m.messages ga).map Eff.ext) = _
          exact eventsOf_ext _
    | tick =>
      cases hx
      simp only [DaemonOp.perform, andThen_ok (clockNow_run now hnow s hs.1.1 c hc)]
      exact ⟨rfl, rfl, rfl⟩
    | reconnect labels => cases hx
  said := fun x hP s hs => by
    cases x with
    | message topic payload meaning =>
      cases meaning with
      | none =>
        obtain ⟨r, hr⟩ := onMessage_nothing u loads topic payload hP s
        simp only [DaemonOp.perform, hr]
        rfl
      | some p =>
        obtain ⟨ga, m⟩ := p
        obtain ⟨ht, ⟨v, hv, hm⟩, hb⟩ := hP
        obtain ⟨c', h1, h2⟩ := C60_acts_partial u loads topic ga ht payload v hv m hm hb s hs.1
        simp only [DaemonOp.perform, h2, DaemonOp.announces]
        show extsOf ((m.messages ga).map Eff.ext) = _
        exact extsOf_ext _
    | tick =>
      obtain ⟨c, hc, -⟩ := code_cycle hs.1.2
      simp only [DaemonOp.perform, andThen_ok (clockNow_run now hnow s hs.1.1 c hc)]
      rfl
    | reconnect labels =>
      simp only [DaemonOp.perform, C66_connect, DaemonOp.announces]
      exact extsOf_ext (_ :: _)
  ignored := fun x hP hx s hs => by
    cases x with
    | message topic payload meaning =>
      cases meaning with
      | none =>
        obtain ⟨r, hr⟩ := onMessage_nothing u loads topic payload hP s
        simp only [DaemonOp.perform, hr]
        exact ⟨trivial, rfl, rfl⟩
      | some p => cases hx
    | tick => cases hx
    | reconnect labels =>
      simp only [DaemonOp.perform, C66_connect]
      refine ⟨?_, writesOf_ext (_ :: _), eventsOf_ext (_ :: _)⟩
      obtain ⟨-, h⟩ := hs
      cases s
      simp only at h
      rw [h]

/-- C89: connect `cmqttd` to a simulated PCI that it has set up, and let anything happen
in any order: messages from the broker, turns of the clock task, new connections to the
broker, reports from the simulated PCI, and deliveries of bytes in either direction in
pieces of up to 209. At all times the simulated PCI has carried out an initial part of
the commands that were asked for and nothing else, and the broker has been sent exactly
the confirmations of the messages so far, the announcements of the connections so far
and the states for the events so far, each in order. Once everything has been delivered
all commands have been carried out and confirmed, and all reports have been told to the
daemon; without clock updates, nothing else has been.

A message that switches on with a negative brightness counts as one that asks for
nothing, see C61. -/
theorem C89_daemon (u : UniTable) (loads : Bytes → Option JVal) (now : Nat → PyDateTime) (hnow : ∀ n, DateTimeOk (now n))
    (rand : Nat → Int) (hr : Server.RandOk rand) (c : Client) (hc : Online c) (s : Server) (hs : Settled s)
    (acts : List (Act DaemonOp)) (hok : ∀ a ∈ acts, a.Ok (DaemonOp.Ok u loads)) :
    let l := Link.run (Mqtt.cbusHook now) (DaemonOp.perform u loads now) rand { client := ⟨[], c⟩, server := ⟨[], s⟩ } acts
    let calls := callsOf DaemonOp.command acts
    sEventsOf l.sOut <+: sessionEvents now c.clockReads calls ∧
    (l.up = [] → sEventsOf l.sOut = sessionEvents now c.clockReads calls) ∧
    (l.up = [] → l.down = [] →
      confirmedOf l.cOut = (cycleFrom c.nextConf calls.length).map (fun x => ([x], true)) ∧
      List.Sublist ((reportsOf acts).map NetEvent.event) (reportedOf l.cOut) ∧
      ((∀ k ∈ calls, SetsClock k = false) → reportedOf l.cOut = (reportsOf acts).map NetEvent.event)) ∧
    ∃ log : List (DaemonOp ⊕ Event), messagesOf l.cOut = log.flatMap (Sum.elim DaemonOp.announces eventMessages) ∧
      log.filterMap Sum.getLeft? = doneOf acts ∧ log.filterMap Sum.getRight? = eventsOf l.cOut := by
  obtain ⟨h1, -, h3, h4, h5⟩ := C88_interleaved (steady_daemon now) now hnow (performs_daemon u loads now hnow) rand hr c hc s hs acts hok
  refine ⟨h1, h3, fun hu hd => (h4 hu hd).2.2, ?_⟩
  rw [messagesOf_eq]
  exact h5

/-- C89: no message is left out: every payload on every topic asks for a command or for
nothing. -/
theorem C89_every_message (u : UniTable) (loads : Bytes → Option JVal) (topic : Str) (payload : Bytes) :
    ∃ meaning, (DaemonOp.message topic payload meaning).Ok u loads := by
  by_cases ht : ∃ ga, IsSetTopic u topic ga
  · obtain ⟨ga, ht⟩ := ht
    cases hv : loads payload with
    | none => exact ⟨none, .inr (.inl hv)⟩
    | some v =>
      rcases means_or_error u v with ⟨m, hm⟩ | he
      · by_cases hb : 0 ≤ m.brightness ∨ m.on = false
        · exact ⟨some (ga, m), ht, ⟨v, hv, hm⟩, hb⟩
        · simp only [not_or, Int.not_le, Bool.not_eq_false] at hb
          exact ⟨none, .inr (.inr ⟨v, hv, .inr ⟨m, hm, hb.1, hb.2⟩⟩)⟩
      · exact ⟨none, .inr (.inr ⟨v, hv, .inl he⟩)⟩
  · exact ⟨none, .inl fun ga hg => ht ⟨ga, hg⟩⟩

/-- A message from the broker crosses a report from the network. -/
example :
    let now : Nat → PyDateTime := fun _ => ⟨⟨2024, 2, 29⟩, ⟨13, 1, 2, 0⟩⟩
    let acts := [Act.call (.message "homeassistant/light/cbus_7/set".toList [] (some (7, { on := true, brightness := 300 }))),
      .report (.off 5 2), .up 7, .down 10, .call (.message "hello".toList [] none), .up 11, .down 200, .up 20, .down 10]
    let l := Link.run (Mqtt.cbusHook now) (DaemonOp.perform .ascii (fun _ => some (onWith 300)) now) (fun _ => 1)
      { client := ⟨[], { connected := true, mqttApi := true }⟩, server := ⟨[], { connected := true, basic := false, checksum := true }⟩ } acts
    l.up = [] ∧ l.down = [] ∧ sEventsOf l.sOut = [.lightingOn 7] ∧
    messagesOf l.cOut = [stateMessage 7 true (.int 255) 0 none, sensorMessage 7 true,
      stateMessage 2 false (.int 0) 0 (some 5), sensorMessage 2 false] := by
  decide +kernel

example : (DaemonOp.message "homeassistant/light/cbus_7/set".toList [] (some (7, { on := true, brightness := 300 }))).Ok .ascii
      (fun _ => some (onWith 300)) ∧
    (DaemonOp.message "hello".toList [] none).Ok .ascii (fun _ => some (onWith 300)) := by
  refine ⟨⟨⟨?_, ?_, ?_⟩, ⟨_, rfl, onWith_means _ 300⟩, .inl (by decide)⟩, .inl ?_⟩
  · decide +kernel
  · decide +kernel
  · decide +kernel
  · rintro ga ⟨h, -⟩
    revert h
    decide +kernel

end CBus.Props
