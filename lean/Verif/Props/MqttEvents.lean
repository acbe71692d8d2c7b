import Verif.Props.Mqtt

/-! # C49, C62 – C65: events of the C-Bus network and MQTT -/

namespace CBus.Props
open CBus CBus.Spec

/-- The MQTT messages, in order. -/
def messagesOf (o : List (Eff MqttEff)) : List MqttEff :=
  o.filterMap fun e => match e with
    | .ext x => some x
    | _ => none

theorem messagesOf_append (a b : List (Eff MqttEff)) : messagesOf (a ++ b) = messagesOf a ++ messagesOf b := by
  simp [messagesOf]

theorem messagesOf_ext (l : List MqttEff) : messagesOf (l.map .ext) = l := by
  induction l with
  | nil => rfl
  | cons x l ih => simp only [messagesOf, List.map_cons, List.filterMap_cons] at ih ⊢; rw [ih]

theorem eventsOf_ext (l : List MqttEff) : eventsOf (l.map Eff.ext) = [] := by
  induction l with
  | nil => rfl
  | cons x l ih => simp only [eventsOf, List.map_cons, List.filterMap_cons] at ih ⊢; rw [ih]

theorem writesOf_ext (l : List MqttEff) : writesOf (l.map Eff.ext) = [] := by
  induction l with
  | nil => rfl
  | cons x l ih => simp only [writesOf, List.map_cons, List.filterMap_cons] at ih ⊢; rw [ih]

/-! ## C62 -/

/-- C62: an event on the network makes a `CBusHandler` that is connected to the
broker publish exactly the messages for it; one that is not publishes nothing.
Nothing is written to the C-Bus and the object does not change. -/
theorem C62_event (now : Nat → PyDateTime) (e : Event) (he : ∀ src, e ≠ .clockRequest src) (s : Client) :
    Mqtt.cbusHook now e s = (s, if s.mqttApi then (eventMessages e).map .ext else [], .ok ()) := by
  unfold Mqtt.cbusHook
  cases e with
  | lightingOn src ga => simp only [publish_on]; split <;> rfl
  | lightingOff src ga => simp only [publish_off]; split <;> rfl
  | lightingRamp src ga d l => simp only [publish_ramp]; split <;> rfl
  | clockRequest src => exact absurd rfl (he src)
  | confirmation _ _ => simp [Client.baseHook, eventMessages]
  | cannotAcceptData => simp [Client.baseHook, eventMessages]
  | lightingTerminate _ _ => simp [Client.baseHook, eventMessages]
  | clockUpdate _ _ => simp [Client.baseHook, eventMessages]

theorem cbusHook_clock (now : Nat → PyDateTime) (hnow : ∀ n, DateTimeOk (now n)) (src : Option Int) (s : Client)
    (hu : Up s) : Mqtt.cbusHook now (.clockRequest src) s = (afterClock s 1, [.write (clockLine now s 0)], .ok ()) := by
  obtain ⟨c, h1, h2⟩ := code_cycle hu.2
  unfold Mqtt.cbusHook
  simp only [Proc.andThen, clockNow_run now hnow s hu.1 c h1, pure, clockLine_zero now s c h2, afterClock]
  rfl

theorem cbusHook_quiet (now : Nat → PyDateTime) : Quiet (Mqtt.cbusHook now) := by
  intro e s
  by_cases he : ∀ src, e ≠ .clockRequest src
  · rw [C62_event now e he s]
    show eventsOf (if _ then _ else _) = []
    split
    · exact eventsOf_ext _
    · rfl
  · simp only [Classical.not_forall, Classical.not_not] at he
    obtain ⟨src, rfl⟩ := he
    have := clockDatetime_quiet (π := MqttEff) now none s
    unfold Mqtt.cbusHook
    simp only
    unfold Proc.andThen
    split
    · rename_i he; rw [he] at this; exact this
    · rename_i he
      rw [he] at this
      simp only [pure, List.append_nil]
      exact this

/-- The messages for the commands in a packet. -/
def salMessages (src : Option Int) (l : List SAL) : List MqttEff := (l.filterMap (salEvent src)).flatMap eventMessages

theorem cbus_onSal (now : Nat → PyDateTime) (hnow : ∀ n, DateTimeOk (now n)) (src : Option Int) (x : SAL)
    (s : Client) (hu : Up s) :
    let n := if isRequest x then 1 else 0
    ∃ o, Client.onSal (Mqtt.cbusHook now) src x s = (afterClock s n, o, .ok ()) ∧
      writesOf o = (List.range n).map (clockLine now s) ∧
      messagesOf o = if s.mqttApi then salMessages src [x] else [] := by
  have h0 : afterClock s 0 = s := by
    have : s.nextConf % 20 = s.nextConf := by have := hu.2; omega
    simp only [afterClock, Nat.add_zero, this]
  have plain : ∀ e, (∀ src, e ≠ .clockRequest src) → salEvent src x = some e →
      Client.onSal (Mqtt.cbusHook now) src x = Client.call (Mqtt.cbusHook now) e → isRequest x = false →
      ∃ o, Client.onSal (Mqtt.cbusHook now) src x s = (afterClock s (if isRequest x then 1 else 0), o, .ok ()) ∧
      writesOf o = (List.range (if isRequest x then 1 else 0)).map (clockLine now s) ∧
      messagesOf o = if s.mqttApi then salMessages src [x] else [] := by
    intro e he hse hc hr
    rw [hr, hc]
    simp only [Bool.false_eq_true, if_false, h0]
    refine ⟨.event e :: (if s.mqttApi then (eventMessages e).map .ext else []), ?_, ?_, ?_⟩
    · simp only [Client.call, Proc.andThen, Proc.emit, C62_event now e he s]
      rfl
    · show writesOf (if _ then _ else _) = []
      split
      · exact writesOf_ext _
      · rfl
    · have : salMessages src [x] = eventMessages e := by simp [salMessages, hse]
      rw [this]
      show messagesOf (if _ then _ else _) = _
      split
      · exact messagesOf_ext _
      · rfl
  cases x with
  | lightRamp ga d l => exact plain (.lightingRamp src ga d l) (by simp) rfl rfl rfl
  | lightOn ga => exact plain (.lightingOn src ga) (by simp) rfl rfl rfl
  | lightOff ga => exact plain (.lightingOff src ga) (by simp) rfl rfl rfl
  | lightTerminate ga => exact plain (.lightingTerminate src ga) (by simp) rfl rfl rfl
  | clockUpdate v => exact plain (.clockUpdate src v) (by simp) rfl rfl rfl
  | clockRequest =>
    refine ⟨[.event (.clockRequest src), .write (clockLine now s 0)], ?_, rfl, ?_⟩
    · simp only [Client.onSal, Client.call, Proc.andThen, Proc.emit, cbusHook_clock now hnow src s hu, isRequest, if_true]
      rfl
    · show ([] : List MqttEff) = _
      split <;> rfl
  | temperature _ _ => exact ⟨[], by simp only [isRequest, Bool.false_eq_true, if_false, h0]; rfl, rfl, by split <;> rfl⟩
  | enableSet _ _ => exact ⟨[], by simp only [isRequest, Bool.false_eq_true, if_false, h0]; rfl, rfl, by split <;> rfl⟩
  | statusRequest _ _ _ => exact ⟨[], by simp only [isRequest, Bool.false_eq_true, if_false, h0]; rfl, rfl, by split <;> rfl⟩

theorem cbus_onSals (now : Nat → PyDateTime) (hnow : ∀ n, DateTimeOk (now n)) (src : Option Int) :
    ∀ (l : List SAL) (s : Client), Up s →
    ∃ o, Client.onSals (Mqtt.cbusHook now) src l s = (afterClock s (l.countP isRequest), o, .ok ()) ∧
      writesOf o = (List.range (l.countP isRequest)).map (clockLine now s) ∧
      messagesOf o = if s.mqttApi then salMessages src l else [] := by
  intro l
  induction l with
  | nil =>
    intro s hu
    refine ⟨[], ?_, rfl, by split <;> rfl⟩
    have : s.nextConf % 20 = s.nextConf := by have := hu.2; omega
    simp [Client.onSals, afterClock, pure, this]
  | cons x l ih =>
    intro s hu
    obtain ⟨o1, e1, w1, m1⟩ := cbus_onSal now hnow src x s hu
    generalize hn1 : (if isRequest x then 1 else 0) = n1 at e1 w1
    obtain ⟨o2, e2, w2, m2⟩ := ih (afterClock s n1) ⟨hu.1, by unfold afterClock; simp only; omega⟩
    have hh : (afterClock s n1).mqttApi = s.mqttApi := rfl
    rw [hh] at m2
    generalize hn2 : l.countP isRequest = n2 at e2 w2
    have hn : (x :: l).countP isRequest = n1 + n2 := by
      rw [← hn1, ← hn2, List.countP_cons]
      by_cases b : isRequest x = true <;> simp [b] <;> omega
    simp only [hn]
    refine ⟨o1 ++ o2, ?_, ?_, ?_⟩
    · simp only [Client.onSals, Proc.andThen, e1, e2]
      unfold afterClock
      simp only [Nat.add_assoc]
      congr 2
      omega
    · rw [writesOf_append, w1, w2, List.range_add, List.map_append, List.map_map]
      congr 1
      apply List.map_congr_left
      intro i _
      simp only [Function.comp, clockLine_shift]
    · rw [messagesOf_append, m1, m2]
      split
      · simp only [salMessages, ← List.flatMap_append, ← List.filterMap_append, List.cons_append, List.nil_append]
      · rfl

/-- C62: receiving a packet, a `CBusHandler` publishes exactly the messages for the
lighting commands in it, in order, or nothing if it is not connected to the broker. -/
theorem C62_packet (now : Nat → PyDateTime) (hnow : ∀ n, DateTimeOk (now n)) (p : Packet) (s : Client) (hu : Up s) :
    messagesOf (Client.onPacket (Mqtt.cbusHook now) p s).2.1 =
      (if s.mqttApi then (packetEvents p).flatMap eventMessages else []) ∧
    (Client.onPacket (Mqtt.cbusHook now) p s).2.2 = .ok () := by
  cases p with
  | pm q =>
    obtain ⟨o, h1, -, h3⟩ := cbus_onSals now hnow q.src q.sals s hu
    have e : Client.onPacket (Mqtt.cbusHook now) (.pm q) s = Client.onSals (Mqtt.cbusHook now) q.src q.sals s := rfl
    rw [e, h1]
    exact ⟨h3, rfl⟩
  | confirmation c ok =>
    have e : Client.onPacket (Mqtt.cbusHook now) (.confirmation c ok) s =
      Client.call (Mqtt.cbusHook now) (.confirmation c ok) s := rfl
    rw [e]
    simp [Client.call, Proc.andThen, Proc.emit, C62_event, packetEvents, eventMessages, messagesOf]
  | pciError =>
    have e : Client.onPacket (Mqtt.cbusHook now) .pciError s = Client.call (Mqtt.cbusHook now) .cannotAcceptData s := rfl
    rw [e]
    simp [Client.call, Proc.andThen, Proc.emit, C62_event, packetEvents, eventMessages, messagesOf]
  | _ => exact ⟨by simp [Client.onPacket, pure, packetEvents, messagesOf], rfl⟩

example : (Client.dataReceived (Mqtt.cbusHook fun _ => someTime) (ascii "050538007901120280B0\r\n0506380009")
      ⟨[], { connected := true, mqttApi := true }⟩).2.1 =
    [.event (.lightingOn (some 5) 1),
     .ext (.publish "homeassistant/light/cbus_1/state".toList
        (.json (.obj [("state".toList, .str "ON".toList), ("brightness".toList, .num (.int 255)),
          ("transition".toList, .num (.int 0)), ("cbus_source_addr".toList, .num (.int 5))])) 1 true),
     .ext (.publish "homeassistant/binary_sensor/cbus_1/state".toList (.text "ON".toList) 1 true),
     .event (.lightingRamp (some 5) 2 8 (.int 128)),
     .ext (.publish "homeassistant/light/cbus_2/state".toList
        (.json (.obj [("state".toList, .str "ON".toList), ("brightness".toList, .num (.int 128)),
          ("transition".toList, .num (.int 8)), ("cbus_source_addr".toList, .num (.int 5))])) 1 true),
     .ext (.publish "homeassistant/binary_sensor/cbus_2/state".toList (.text "ON".toList) 1 true)] := by
  decide +kernel

/-! ## C49 -/

/-- C49 in full: a connected `CBusHandler` with `handle_clock_requests=False` writes
nothing when it receives a packet. -/
def C49_claim : Prop :=
  ∀ (now : Nat → PyDateTime), (∀ n, DateTimeOk (now n)) → ∀ (p : Packet) (s : Client), Up s → s.handleClock = false →
    writesOf (Client.onPacket (Mqtt.cbusHook now) p s).2.1 = []

/-- What a connected `CBusHandler` writes on receiving a packet: one clock update
per clock request in it, whatever `handle_clock_requests` says. -/
theorem cbus_writes (now : Nat → PyDateTime) (hnow : ∀ n, DateTimeOk (now n)) (p : Packet) (s : Client) (hu : Up s) :
    writesOf (Client.onPacket (Mqtt.cbusHook now) p s).2.1 =
      (List.range (match p with | .pm q => q.sals.countP isRequest | _ => 0)).map (clockLine now s) := by
  cases p with
  | pm q =>
    obtain ⟨o, h1, h2, -⟩ := cbus_onSals now hnow q.src q.sals s hu
    have e : Client.onPacket (Mqtt.cbusHook now) (.pm q) s = Client.onSals (Mqtt.cbusHook now) q.src q.sals s := rfl
    rw [e, h1]
    exact h2
  | _ => rfl

/-- C49 for packets without a clock request.

What is missing: clock requests, for which it is false. -/
theorem C49_no_request_partial (now : Nat → PyDateTime) (hnow : ∀ n, DateTimeOk (now n)) (p : Packet) (s : Client)
    (hu : Up s) (hp : ∀ q, p = .pm q → .clockRequest ∉ q.sals) :
    writesOf (Client.onPacket (Mqtt.cbusHook now) p s).2.1 = [] := by
  rw [cbus_writes now hnow p s hu]
  cases p with
  | pm q =>
    have : q.sals.countP isRequest = 0 := by
      rw [List.countP_eq_zero]
      intro x hx hr
      cases x <;> first | exact absurd hx (hp q rfl) | cases hr
    simp [this]
  | _ => rfl

/-- C49 is false: `CBusHandler.on_clock_request` answers without looking at the
option, so `--no-clock` does not stop it. -/
theorem C49_false : ¬ C49_claim := by
  intro h
  have := h (fun _ => someTime) (fun _ => someTime_ok) (.pm { app := some appClock, sals := [.clockRequest], src := some 5 })
    { connected := true, handleClock := false } ⟨rfl, by decide⟩ rfl
  revert this
  decide +kernel

example : (Client.dataReceived (Mqtt.cbusHook fun _ => ⟨⟨2024, 2, 29⟩, ⟨12, 34, 56, 0⟩⟩)
      (ascii "0505DF00110303\r\n") ⟨[], { connected := true, handleClock := false }⟩).2.1 =
    [.event (.clockRequest (some 5)), .write (ascii "\\05DF000E0207E8021D030D010C2238FF88h\r")] := by decide +kernel

/-! ## C63 -/

/-- Whenever the list contains a state message and a binary sensor message for the
same group address, they agree. -/
def Agree (l : List MqttEff) : Prop :=
  ∀ ga on level d src on', stateMessage ga on level d src ∈ l → sensorMessage ga on' ∈ l → on = on'

theorem on_ne_off : "ON".toList ≠ "OFF".toList := by decide

theorem onOff_inj {a b : Bool} (h : (if a then "ON".toList else "OFF".toList) = if b then "ON".toList else "OFF".toList) :
    a = b := by
  cases a <;> cases b <;> first | rfl | exact absurd h on_ne_off | exact absurd h.symm on_ne_off

theorem agree_pair (ga : Int) (on : Bool) (level : PyNum) (d : Int) (src : Option Int) :
    Agree [stateMessage ga on level d src, sensorMessage ga on] := by
  intro ga' a level' d' src' b h1 h2
  have k1 : a = on := by
    simp only [List.mem_cons, List.not_mem_nil, or_false] at h1
    rcases h1 with h1 | h1
    · simp only [stateMessage, MqttEff.publish.injEq, MqttPayload.json.injEq, JVal.obj.injEq, List.cons.injEq,
        Prod.mk.injEq, JVal.str.injEq] at h1
      exact onOff_inj h1.2.1.1.2
    · simp only [stateMessage, sensorMessage, MqttEff.publish.injEq] at h1
      cases h1.2.1
  have k2 : b = on := by
    simp only [List.mem_cons, List.not_mem_nil, or_false] at h2
    rcases h2 with h2 | h2
    · simp only [stateMessage, sensorMessage, MqttEff.publish.injEq] at h2
      cases h2.2.1
    · simp only [sensorMessage, MqttEff.publish.injEq, MqttPayload.text.injEq] at h2
      exact onOff_inj h2.2.1
  rw [k1, k2]

/-- C63 in full: for events from the network, and for set messages. -/
def C63_claim : Prop :=
  (∀ now e s, Agree (messagesOf (Mqtt.cbusHook now e s).2.1)) ∧
  (∀ u loads topic payload s, Agree (messagesOf (Mqtt.onMessage u loads topic payload s).2.1))

/-- C63 for events other than a ramp to level zero.

What is missing: ramps to level zero, for which it is false. -/
theorem C63_events_partial (now : Nat → PyDateTime) (hnow : ∀ n, DateTimeOk (now n)) (e : Event) (s : Client) (hu : Up s)
    (he : ∀ src ga d l, e = .lightingRamp src ga d l → Lit l = true) :
    Agree (messagesOf (Mqtt.cbusHook now e s).2.1) := by
  have none : Agree [] := fun _ _ _ _ _ _ h => absurd h (by simp)
  by_cases hc : ∀ src, e ≠ .clockRequest src
  · rw [C62_event now e hc s]
    show Agree (messagesOf (if _ then _ else _))
    split
    · rw [messagesOf_ext]
      cases e with
      | lightingOn src ga => exact agree_pair ga true _ _ _
      | lightingOff src ga => exact agree_pair ga false _ _ _
      | lightingRamp src ga d l =>
        have := he src ga d l rfl
        simp only [eventMessages, this]
        exact agree_pair ga true _ _ _
      | _ => exact none
    · exact none
  · simp only [Classical.not_forall, Classical.not_not] at hc
    obtain ⟨src, rfl⟩ := hc
    rw [cbusHook_clock now hnow src s hu]
    exact none

/-- C63 for set messages that do not ask for brightness zero. -/
theorem C63_messages_partial (u : UniTable) (loads : Bytes → Option JVal) (topic : Str) (ga : Int)
    (ht : IsSetTopic u topic ga) (payload : Bytes) (v : JVal) (hl : loads payload = some v) (m : SetMessage)
    (hm : Means u v m) (hb : 0 < m.brightness ∨ m.on = false) (s : Client) (hu : Up s) :
    Agree (messagesOf (Mqtt.onMessage u loads topic payload s).2.1) := by
  obtain ⟨c, -, h⟩ := C60_acts_partial u loads topic ga ht payload v hl m hm
    (by rcases hb with h | h; left; omega; right; exact h) s hu
  rw [h]
  show Agree (messagesOf (List.map Eff.ext (m.messages ga)))
  rw [messagesOf_ext]
  unfold SetMessage.messages
  split
  · rename_i ho
    have hb' : 0 < m.brightness := by
      rcases hb with h | h
      · exact h
      · rw [ho] at h; cases h
    split
    · exact agree_pair ga true _ _ _
    · have hl : Lit (.int (clamp m.brightness)) = true := by
        unfold Lit PyNum.gtRat
        have := (Rat.intCast_lt_intCast (a := 0) (b := clamp m.brightness)).2 (by unfold clamp; omega)
        simpa using this
      simp only [eventMessages, hl]
      exact agree_pair ga true _ _ _
  · exact agree_pair ga false _ _ _

/-- C63 is false: a ramp to level zero is published as a light that is on at
brightness zero and a binary sensor that is off. -/
theorem C63_false : ¬ C63_claim := by
  rintro ⟨h, -⟩
  have := h (fun _ => someTime) (.lightingRamp (some 5) 1 4 (.int 0)) { connected := true, mqttApi := true } 1 true
    (.int 0) 4 (some 5) false
  rw [C62_event _ _ (by simp)] at this
  simp only [if_true, messagesOf_ext, eventMessages] at this
  have hl : Lit (.int 0) = false := by decide +kernel
  rw [hl] at this
  cases this (by simp) (by simp)

example : (Client.dataReceived (Mqtt.cbusHook fun _ => someTime) (ascii "050538000A0100B3\r\n")
      ⟨[], { connected := true, mqttApi := true }⟩).2.1 =
    [.event (.lightingRamp (some 5) 1 4 (.int 0)),
     .ext (.publish "homeassistant/light/cbus_1/state".toList
        (.json (.obj [("state".toList, .str "ON".toList), ("brightness".toList, .num (.int 0)),
          ("transition".toList, .num (.int 4)), ("cbus_source_addr".toList, .num (.int 5))])) 1 true),
     .ext (.publish "homeassistant/binary_sensor/cbus_1/state".toList (.text "OFF".toList) 1 true)] := by
  decide +kernel

/-! ## C64 -/

theorem cbus_up (now : Nat → PyDateTime) (hnow : ∀ n, DateTimeOk (now n)) (p : Packet) (s : Client) (hu : Up s) :
    Up (Client.onPacket (Mqtt.cbusHook now) p s).1 ∧ (Client.onPacket (Mqtt.cbusHook now) p s).1.mqttApi = s.mqttApi := by
  cases p with
  | pm q =>
    obtain ⟨o, h1, -⟩ := cbus_onSals now hnow q.src q.sals s hu
    have e : Client.onPacket (Mqtt.cbusHook now) (.pm q) s = Client.onSals (Mqtt.cbusHook now) q.src q.sals s := rfl
    rw [e, h1]
    refine ⟨⟨hu.1, ?_⟩, rfl⟩
    unfold afterClock; simp only; omega
  | confirmation c ok =>
    have e : Client.onPacket (Mqtt.cbusHook now) (.confirmation c ok) s =
      Client.call (Mqtt.cbusHook now) (.confirmation c ok) s := rfl
    rw [e]
    simp only [Client.call, Proc.andThen, Proc.emit, C62_event now (.confirmation c ok) (by simp) s]
    exact ⟨hu, trivial⟩
  | pciError =>
    have e : Client.onPacket (Mqtt.cbusHook now) .pciError s = Client.call (Mqtt.cbusHook now) .cannotAcceptData s := rfl
    rw [e]
    simp only [Client.call, Proc.andThen, Proc.emit, C62_event now .cannotAcceptData (by simp) s]
    exact ⟨hu, trivial⟩
  | _ => exact ⟨hu, rfl⟩

theorem runPackets_cbus (now : Nat → PyDateTime) (hnow : ∀ n, DateTimeOk (now n)) :
    ∀ (ps : List Packet) (s : Client), Up s →
    ∃ s' o, runPackets (Client.onPacket (Mqtt.cbusHook now)) ps s = (s', o, .ok ()) ∧ Up s' ∧ s'.mqttApi = s.mqttApi ∧
      eventsOf o = ps.flatMap packetEvents ∧
      messagesOf o = if s.mqttApi then (ps.flatMap packetEvents).flatMap eventMessages else [] := by
  intro ps
  induction ps with
  | nil => intro s hu; exact ⟨s, [], rfl, hu, rfl, rfl, by split <;> rfl⟩
  | cons p ps ih =>
    intro s hu
    obtain ⟨hm, h1⟩ := C62_packet now hnow p s hu
    have h2 := (C47_packet (cbusHook_quiet now) p s).2 h1
    obtain ⟨h3, h4⟩ := cbus_up now hnow p s hu
    generalize hr : Client.onPacket (Mqtt.cbusHook now) p s = r at h1 h2 h3 h4 hm
    obtain ⟨s1, o1, r1⟩ := r
    simp only at h1 h2 h3 h4 hm
    subst h1
    obtain ⟨s', o, g1, g2, g3, g4, g5⟩ := ih s1 h3
    rw [h4] at g3 g5
    refine ⟨s', o1 ++ o, ?_, g2, g3, ?_, ?_⟩
    · simp only [runPackets, Proc.andThen, hr, g1]
    · rw [eventsOf_append, h2, g4]; rfl
    · rw [messagesOf_append, hm, g5]
      split
      · rw [List.flatMap_cons, List.flatMap_append]
      · rfl

/-- C64: a `CBusHandler` that is connected to both sides and receives reports from
the PCI, chopped into any chunks its buffer can hold, publishes exactly the messages
for the lighting commands in them, in order, with the values and the source address
on the wire. -/
theorem C64_stream (now : Nat → PyDateTime) (hnow : ∀ n, DateTimeOk (now n)) (s : Client) (hu : Up s)
    (ha : s.mqttApi = true) (items : List (PM × Bytes)) (hi : ∀ i ∈ items, EventLine i.1 i.2) (chunks : List Bytes)
    (hc : chunks.flatten = (items.map (·.2)).flatten)
    (hf : Fits maxBufferSize (Client.handle (Mqtt.cbusHook now)) chunks ⟨[], s⟩) :
    let r := feed maxBufferSize (Client.handle (Mqtt.cbusHook now)) chunks ⟨[], s⟩
    r.2.2 = .ok () ∧ r.1.buf = [] ∧
    messagesOf r.2.1 = items.flatMap fun i => salMessages i.1.src (i.1.sals.map received) := by
  let its : List (Bytes × Packet) :=
    items.map fun i => (i.2, Packet.pm { i.1 with sals := i.1.sals.map received, conf := none })
  obtain ⟨s', o, h1, -, -, -, h3⟩ := runPackets_cbus now hnow (its.map (·.2)) s hu
  have := Client.feed_lines (Mqtt.cbusHook now) its chunks s s' o (by
    intro i hi'
    simp only [its, List.mem_map] at hi'
    obtain ⟨j, hj, rfl⟩ := hi'
    exact eventLine_lineFor (hi j hj)) h1 (by rw [hc]; simp [its, Function.comp_def]) hf
  simp only
  rw [this]
  refine ⟨rfl, rfl, ?_⟩
  rw [h3, ha, if_pos rfl]
  simp only [its, List.map_map, List.flatMap_map, List.flatMap_assoc]
  rfl

/-! ## C65 -/

/-- The command that a set message asks for, as it is received: ramps take one of
the durations of the protocol. -/
def _root_.CBus.Spec.SetMessage.sal (m : SetMessage) (ga : Int) : SAL :=
  if m.on then
    if 255 ≤ m.brightness ∧ m.transition ≤ 0 then .lightOn ga
    else .lightRamp ga (quantise (max 0 m.transition)) (.int (clamp m.brightness))
  else .lightOff ga

theorem call_sals (m : SetMessage) (ga : Int) (t : PyDateTime) : (callSals t (m.call ga)).map received = [m.sal ga] := by
  have h : (clamp m.brightness = 255 ∧ max 0 m.transition = 0) ↔ (255 ≤ m.brightness ∧ m.transition ≤ 0) := by
    unfold clamp; omega
  unfold SetMessage.call SetMessage.sal
  simp only [h]
  repeat' split
  all_goals rfl

theorem call_broadcast (m : SetMessage) (ga : Int) : IsBroadcast (m.call ga) := by
  unfold SetMessage.call
  repeat' split
  all_goals trivial

/-- C65: the line that a set message makes a connected `CBusHandler` write is decoded
by a PCI in checksum mode into a lighting packet with exactly the command that the
message asks for, and the confirmation code. -/
theorem C65_decodes (u : UniTable) (loads : Bytes → Option JVal) (ga : Int) (hg : IsByte ga) (payload : Bytes) (v : JVal)
    (hl : loads payload = some v) (m : SetMessage) (hm : Means u v m) (hb : 0 ≤ m.brightness ∨ m.on = false) (s : Client)
    (hu : Up s) :
    ∃ line, writesOf (Mqtt.onMessage u loads (topicText .lightSet ga).toList payload s).2.1 = [line] ∧
      ∃ p : PM, (∀ rest strict, decodePacket (line ++ rest) true strict false = .ok (some (.pm p), line.length)) ∧
        p.app = some 0x38 ∧ p.conf.toList = cycleFrom s.nextConf 1 ∧ p.sals = [m.sal ga] := by
  obtain ⟨c, h1, h2⟩ := C60_acts_partial u loads _ ga (setTopic_isSetTopic u ga hg) payload v hl m hm hb s hu
  refine ⟨setLine m ga c, ?_, ?_⟩
  · rw [h2]
    show setLine m ga c :: writesOf (List.map Eff.ext (m.messages ga)) = _
    rw [writesOf_ext]
  · obtain ⟨hok, hto⟩ := call_ok m ga hg
    obtain ⟨app, e1, e2, e3⟩ := call_packet someTime someTime_ok PyDate.weekday (fun d hd => isWeekday_weekday d hd) (m.call ga)
      (call_broadcast m ga) hok hto
    obtain ⟨w, w1, w2⟩ := C25_command _ e1 rfl
    rw [e2, Except.ok.injEq] at w1
    subst w1
    have hcode : c ∈ confirmationCodes := by
      have key : ∀ k : Fin 20, ∀ c ∈ cycleFrom k.1 1, c ∈ confirmationCodes := by decide +kernel
      exact key ⟨s.nextConf, hu.2⟩ c (by rw [h1]; simp)
    refine ⟨{ app := some app, sals := [m.sal ga], conf := some c }, ?_, ?_, by simp [h1], rfl⟩
    · intro rest strict
      have := w2 (some c) rest strict (by intro x hx; cases hx; exact hcode)
      rw [call_sals] at this
      simp only [Option.toList_some, List.cons_append, List.append_assoc, List.nil_append, List.length_cons, List.length_nil,
        List.length_append, setLine] at this ⊢
      rw [this]
      congr 3
      omega
    · have happ : app = appLighting := by
        have h38 : ∀ sl : List SAL, sl ≠ [] → (∀ x ∈ sl, x.application = appLighting) →
            PmOk { app := some app, sals := sl } → app = appLighting := by
          intro sl hne ha hp
          obtain ⟨-, hs⟩ := hp
          cases sl with
          | nil => exact absurd rfl hne
          | cons x r => rw [← (hs x (by simp)).2, ha x (by simp)]
        refine h38 _ ?_ ?_ e1
        · unfold SetMessage.call
          repeat' split
          all_goals simp [callSals]
        · intro x hx
          unfold SetMessage.call at hx
          repeat' split at hx
          all_goals (simp [callSals] at hx; subst hx; rfl)
      rw [happ]; rfl

/-- C65: delivered in any pieces to a simulated PCI in checksum mode, it raises
exactly the event for that command. -/
theorem C65_simulated_pci (rand : Nat → Int) (hr : Server.RandOk rand) (u : UniTable) (loads : Bytes → Option JVal) (ga : Int)
    (hg : IsByte ga) (payload : Bytes) (v : JVal) (hl : loads payload = some v) (m : SetMessage) (hm : Means u v m)
    (hb : 0 ≤ m.brightness ∨ m.on = false) (s : Client) (hu : Up s) (t : Server) (hc : t.connected = true)
    (hq : Server.QueueLines t) (hcs : t.checksum = true) (chunks : List Bytes)
    (hch : chunks.flatten = (writesOf (Mqtt.onMessage u loads (topicText .lightSet ga).toList payload s).2.1).flatten) :
    ∃ o t', feed maxBufferSize (Server.handle rand) chunks ⟨[], t⟩ = (⟨[], t'⟩, o, .ok ()) ∧
      sEventsOf o = (simpleEvent (m.sal ga)).toList ∧ confirmationsOf o = (cycleFrom s.nextConf 1).map confirmationFor := by
  obtain ⟨c, h1, h2⟩ := C60_acts_partial u loads _ ga (setTopic_isSetTopic u ga hg) payload v hl m hm hb s hu
  have hw : writesOf (Mqtt.onMessage u loads (topicText .lightSet ga).toList payload s).2.1 = [setLine m ga c] := by
    rw [h2]
    show setLine m ga c :: writesOf (List.map Eff.ext (m.messages ga)) = _
    rw [writesOf_ext]
  rw [hw] at hch
  simp only [List.flatten_cons, List.flatten_nil, List.append_nil] at hch
  have hcode : c ∈ confirmationCodes := by
    have key : ∀ k : Fin 20, ∀ c ∈ cycleFrom k.1 1, c ∈ confirmationCodes := by decide +kernel
    exact key ⟨s.nextConf, hu.2⟩ c (by rw [h1]; simp)
  obtain ⟨hok, hto⟩ := call_ok m ga hg
  obtain ⟨o, t', g1, -, g3, g4⟩ := run_call rand hr someTime someTime_ok PyDate.weekday (fun d hd => isWeekday_weekday d hd)
    (m.call ga) (call_broadcast m ga) hok hto c hcode t hc hq hcs
  obtain ⟨-, -, -, e3⟩ := call_packet someTime someTime_ok PyDate.weekday (fun d hd => isWeekday_weekday d hd) (m.call ga)
    (call_broadcast m ga) hok hto
  have hlen : chunks.flatten.length ≤ 209 := by
    rw [hch, setLine]
    simp only [List.length_append, List.length_cons, List.length_nil, b16encode_length, addChecksum]
    omega
  have hsm : ∀ d ∈ chunks, d.length ≤ 209 := fun d hd =>
    Nat.le_trans (List.sublist_flatten_of_mem hd).length_le hlen
  rw [← setLine, ← hch] at g1
  refine ⟨o, t', Run.feed (serverChunkable rand) (by decide) maxBufferSize chunks o g1
    (Run.fits (serverChunkable rand) (by decide) maxBufferSize (by decide) chunks o g1 hsm), ?_, ?_⟩
  · rw [g3]
    have h : (clamp m.brightness = 255 ∧ max 0 m.transition = 0) ↔ (255 ≤ m.brightness ∧ m.transition ≤ 0) := by
      unfold clamp; omega
    unfold SetMessage.call SetMessage.sal
    simp only [h]
    repeat' split
    all_goals rfl
  · rw [g4, h1]; rfl

example : (feed maxBufferSize (Server.handle fun _ => 0)
      [ascii "\\0538000A", ascii "07644Eg\r"] ⟨[], { connected := true, checksum := true }⟩).2.1 =
    (feed maxBufferSize (Server.handle fun _ => 0) [ascii "\\0538000A07644Eg\r"] ⟨[], { connected := true, checksum := true }⟩).2.1 ∧
  sEventsOf (feed maxBufferSize (Server.handle fun _ => 0)
      [ascii "\\0538000A", ascii "07644Eg\r"] ⟨[], { connected := true, checksum := true }⟩).2.1 =
    [.lightingRamp 7 4 (.int 100)] := by decide +kernel

end CBus.Props
