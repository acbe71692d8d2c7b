import Verif.Props.Struck
import Verif.Props.Histories

/-! # C180: confirmations and notifications change nothing -/

namespace CBus.Props
open CBus CBus.Spec

/-- What a PCI sends: a report, or a remark of its own, which is a confirmation of either kind, the notice that it has been switched
on, or the one that it cannot accept data. The flag tells reports from remarks. -/
inductive Remark : Bool → Bytes → Prop
  | report (p : PM) (l : Bytes) (h : EventLine p l) : Remark true l
  | confirmed (c : UInt8) (ok : Bool) (hc : c ∈ confirmationCodes) : Remark false [c, if ok then 0x2e else 0x23]
  | powerUp : Remark false [0x2b]
  | full : Remark false [0x21]

/-- Everything but the calls of the two handlers that are there for remarks. -/
def besides : Eff MqttEff → Bool
  | .event (.confirmation _ _) => false
  | .event .cannotAcceptData => false
  | _ => true

/-- A packet for a remark does nothing but call such a handler. -/
def Idle (now : Nat → PyDateTime) (p : Packet) : Prop :=
  ∀ s, ∃ o, Client.onPacket (Mqtt.cbusHook now) p s = (s, o, .ok ()) ∧ o.filter besides = []

theorem idle_call (now : Nat → PyDateTime) (e : Event) (he : ∀ src, e ≠ .clockRequest src) (hm : eventMessages e = [])
    (hb : besides (.event e) = false) (s : Client) :
    ∃ o, Client.call (Mqtt.cbusHook now) e s = (s, o, .ok ()) ∧ o.filter besides = [] := by
  refine ⟨[.event e], ?_, by simp [hb]⟩
  have h1 := C62_event now e he s
  rw [hm] at h1
  simp only [Client.call, Proc.andThen, Proc.emit, h1]
  simp

/-- Packets with and without those for remarks. -/
theorem run_besides (now : Nat → PyDateTime) : ∀ (ps : List (Bool × Packet)) (_ : ∀ p ∈ ps, p.1 = false → Idle now p.2) (s : Client),
    let all := runPackets (Client.onPacket (Mqtt.cbusHook now)) (ps.map (·.2)) s
    let some := runPackets (Client.onPacket (Mqtt.cbusHook now)) ((ps.filter (·.1)).map (·.2)) s
    all.1 = some.1 ∧ all.2.2 = some.2.2 ∧ all.2.1.filter besides = some.2.1.filter besides
  | [], _, _ => ⟨rfl, rfl, rfl⟩
  | (true, p) :: ps, h, s => by
    have ih := run_besides now ps (fun q hq => h q (by simp [hq]))
    simp only [List.map_cons, List.filter_cons_of_pos, runPackets, Proc.andThen]
    rcases Client.onPacket (Mqtt.cbusHook now) p s with ⟨s1, o1, r1⟩
    cases r1 with
    | error e => exact ⟨rfl, rfl, rfl⟩
    | ok u =>
      obtain ⟨h1, h2, h3⟩ := ih s1
      simp only [List.filter_append]
      exact ⟨h1, h2, by rw [h3]⟩
  | (false, p) :: ps, h, s => by
    obtain ⟨h1, h2, h3⟩ := run_besides now ps (fun q hq => h q (by simp [hq])) s
    obtain ⟨o, e1, e2⟩ := h (false, p) (by simp) rfl s
    have e3 : ((false, p) :: ps).filter (·.1) = ps.filter (·.1) := by simp
    simp only [e3, List.map_cons, runPackets, Proc.andThen, e1, List.filter_append, e2, List.nil_append]
    exact ⟨h1, h2, h3⟩

/-- What a PCI sends, as lines and the packets that they are taken for. -/
theorem remark_lines (now : Nat → PyDateTime) (n : Nat) : ∀ (items : List (Bool × Bytes)), (∀ i ∈ items, Remark i.1 i.2) →
    (∀ i ∈ items, i.2.length ≤ n) →
    ∃ its : List (Bool × Bytes × Packet), its.map (fun i => (i.1, i.2.1)) = items ∧
      (∀ i ∈ its, LineFor i.2.1 i.2.2 ∧ i.2.1.length ≤ n) ∧ (∀ i ∈ its, i.1 = false → Idle now i.2.2)
  | [], _, _ => ⟨[], rfl, by simp, by simp⟩
  | (b, l) :: items, hi, hl => by
    obtain ⟨its, e1, e2, e3⟩ := remark_lines now n items (fun i h => hi i (by simp [h])) (fun i h => hl i (by simp [h]))
    have hn := hl (b, l) (by simp)
    have hr := hi (b, l) (by simp)
    simp only at hn hr
    have one : ∃ p, LineFor l p ∧ (b = false → Idle now p) := by
      cases hr with
      | report p _ h => exact ⟨_, eventLine_lineFor h, by simp⟩
      | confirmed c ok hc => exact ⟨_, code_lineFor c _ hc, fun _ => idle_call now _ (by simp) rfl rfl⟩
      | powerUp => exact ⟨.powerOn, ⟨by simp, fun rest => by simp [decodePacket, framePci]⟩, fun _ s => ⟨[], rfl, rfl⟩⟩
      | full => exact ⟨.pciError, ⟨by simp, fun rest => by simp [decodePacket, framePci]⟩, fun _ => idle_call now _ (by simp) rfl rfl⟩
    obtain ⟨p, h1, h2⟩ := one
    refine ⟨(b, l, p) :: its, by simp [e1], ?_, ?_⟩
    · intro i h
      rcases List.mem_cons.1 h with rfl | h
      · exact ⟨h1, hn⟩
      · exact e2 i h
    · intro i h
      rcases List.mem_cons.1 h with rfl | h
      · exact h2
      · exact e3 i h

/-- C180: the daemon receives reports with remarks of the PCI among them, and the same reports without any remarks, in whatever
pieces. It writes the same, publishes the same and calls the same handlers in the same order, but for the two that are there for
remarks, and is left in the same state: no confirmation is waited for, and a command that is refused is not repeated. -/
theorem C180_heedless (now : Nat → PyDateTime) (hnow : ∀ n, DateTimeOk (now n)) (s : Client) (hu : Up s) (hf : s.future = .pending)
    (items : List (Bool × Bytes)) (hi : ∀ i ∈ items, Remark i.1 i.2) (n : Nat) (h0 : 0 < n) (hl : ∀ i ∈ items, i.2.length ≤ n)
    (with_ without : List Bytes) (hw : with_.flatten = (items.map (·.2)).flatten)
    (hwo : without.flatten = ((items.filter (·.1)).map (·.2)).flatten) (hd : ∀ d ∈ with_, d.length + n ≤ 257)
    (hdo : ∀ d ∈ without, d.length + n ≤ 257) :
    let a := Client.tcpSession (Mqtt.cbusHook now) with_ ⟨[], s⟩
    let b := Client.tcpSession (Mqtt.cbusHook now) without ⟨[], s⟩
    a.1 = b.1 ∧ a.1.st.connected = true ∧ a.2.filter besides = b.2.filter besides := by
  obtain ⟨its, e1, e2, e3⟩ := remark_lines now n items hi hl
  have hI : ∀ p s, Up s → (Client.onPacket (Mqtt.cbusHook now) p s).2.2 = .ok () ∧ Up (Client.onPacket (Mqtt.cbusHook now) p s).1 :=
    fun p s hs => ⟨(C62_packet now hnow p s hs).2, (cbus_up now hnow p s hs).1⟩
  have key : ∀ (its : List (Bool × Bytes × Packet)) (chunks : List Bytes), (∀ i ∈ its, LineFor i.2.1 i.2.2 ∧ i.2.1.length ≤ n) →
      chunks.flatten = (its.map (·.2.1)).flatten → (∀ d ∈ chunks, d.length + n ≤ 257) →
      ∃ s' o, runPackets (Client.onPacket (Mqtt.cbusHook now)) (its.map (·.2.2)) s = (s', o, .ok ()) ∧ Up s' ∧
        Client.tcpSession (Mqtt.cbusHook now) chunks ⟨[], s⟩ = (⟨[], s'⟩, o) := by
    intro its chunks g1 g2 g3
    have g4 : ∀ i ∈ its.map (·.2), LineFor i.1 i.2 ∧ i.1.length ≤ n := by
      intro i h
      obtain ⟨j, hj, rfl⟩ := List.mem_map.1 h
      exact g1 j hj
    have g5 : chunks.flatten = ((its.map (·.2)).map (·.1)).flatten := by rw [g2, List.map_map]; rfl
    obtain ⟨s', o, h1, h2, -⟩ := runPackets_cbus now hnow (its.map (·.2.2)) s hu
    have hz := Client.feed_lines (Mqtt.cbusHook now) (its.map (·.2)) chunks s s' o (fun i h => (g4 i h).1)
      (by rw [List.map_map]; exact h1) g5 (fits_lines _ Up hI n h0 _ g4 chunks s hu g5 g3)
    exact ⟨s', o, h1, h2, by rw [tcp_feed now chunks ⟨[], s⟩ _ o _ hu.1 hf hz]⟩
  have f1 : items.map (·.2) = its.map (·.2.1) := by rw [← e1, List.map_map]; rfl
  have f2 : (items.filter (·.1)).map (·.2) = (its.filter (·.1)).map (·.2.1) := by
    rw [← e1, List.filter_map, List.map_map]; rfl
  rw [f1] at hw
  rw [f2] at hwo
  obtain ⟨s1, o1, a1, a2, a3⟩ := key its with_ e2 hw hd
  obtain ⟨s2, o2, b1, -, b3⟩ := key (its.filter (·.1)) without (fun i h => e2 i (List.mem_filter.1 h).1) hwo hdo
  have hr := run_besides now (its.map fun i => (i.1, i.2.2)) (by
    intro p hp
    obtain ⟨j, hj, rfl⟩ := List.mem_map.1 hp
    exact e3 j hj) s
  have k1 : (its.map fun i => (i.1, i.2.2)).map (·.2) = its.map (·.2.2) := by rw [List.map_map]; rfl
  have k2 : ((its.map fun i => (i.1, i.2.2)).filter (·.1)).map (·.2) = (its.filter (·.1)).map (·.2.2) := by
    rw [List.filter_map, List.map_map]; rfl
  simp only [k1, k2, a1, b1] at hr
  simp only [a3, b3, hr.1]
  exact ⟨trivial, hr.1 ▸ a2.1, hr.2.2⟩

/-- A request for the time and a report, with a refusal, a success and both notices among them: the time is written with the same code,
and the same is published. -/
example :
    let run (ds : List Bytes) := Client.tcpSession (Mqtt.cbusHook fun _ => someTime) ds
      ⟨[], { connected := true, future := .pending, mqttApi := true }⟩
    let a := run [ascii "h#!0505DF00110303\r\n+i", ascii ".05053800790144\r\n"]
    let b := run [ascii "0505DF00110303\r\n05053800790144\r\n"]
    a.2.filter besides = b.2.filter besides ∧ a.1 = b.1 ∧ (writesOf b.2).length = 1 ∧
      messagesOf b.2 = eventMessages (.lightingOn (some 5) 1) ∧ a.2.length = b.2.length + 3 := by
  decide +kernel

/-! ## With commands -/

/-- What happens to the daemon while it is connected to the PCI: a line or a remark arrives, it is time to tell the time, the broker is
connected, or a message comes from there. The flag is `false` for remarks. -/
inductive Befalls : Bool → DaemonStep → Prop
  | receive (b : Bool) (l : Bytes) (h : Remark b l) (hl : l.length ≤ 256) : Befalls b (.receive l)
  | tick : Befalls true .tick
  | broker (labels : List (Int × Str)) : Befalls true (.broker labels)
  | message (topic : Str) (payload : Bytes) : Befalls true (.message topic payload)

theorem connected_rel : DaemonRel (fun s _ s' => s.connected = true → s'.connected = true) where
  nil := fun _ h => h
  append := fun h1 h2 h => h2 (h1 h)
  send := by
    intro p b s h
    unfold Client.send
    rw [if_pos h]
    split
    · exact h
    · dsimp only
      split
      · exact h
      · unfold Client.getConfirmationCode
        simp only [Proc.andThen]
        cases confirmationCodes[s.nextConf]? <;> exact h
  read := fun _ h => h
  event := fun _ _ h => h
  ext := fun _ _ h => h

/-- A line that arrives whole is done with. -/
theorem receive_line (u : UniTable) (loads : Bytes → Option JVal) (now : Nat → PyDateTime) (hnow : ∀ n, DateTimeOk (now n)) (s : Client)
    (hu : Up s) (b : Bool) (l : Bytes) (h : Remark b l) (hl : l.length ≤ 256) :
    ∃ s' o, daemonStep u loads now (.receive l) ⟨[], s⟩ = (⟨[], s'⟩, o) ∧ Up s' ∧ (b = false → s' = s ∧ o.filter besides = []) := by
  obtain ⟨its, e1, e2, e3⟩ := remark_lines now 256 [(b, l)] (by simpa using h) (by simpa using hl)
  obtain ⟨p, hp, hi⟩ : ∃ p, LineFor l p ∧ (b = false → Idle now p) := by
    match its, e1 with
    | [(b', l', p)], e1 =>
      simp only [List.map_cons, List.map_nil, List.cons.injEq, Prod.mk.injEq, and_true] at e1
      obtain ⟨rfl, rfl⟩ := e1
      exact ⟨p, (e2 (b', l', p) (by simp)).1, e3 (b', l', p) (by simp)⟩
  obtain ⟨s', o, h1, h2, -⟩ := runPackets_cbus now hnow [p] s hu
  have hz := Client.feed_lines (Mqtt.cbusHook now) [(l, p)] [l] s s' o (by simpa using hp) h1 (by simp) (by
    simp [Fits, maxBufferSize, hl])
  have hd : Client.dataReceived (Mqtt.cbusHook now) l ⟨[], s⟩ = (⟨[], s'⟩, o, .ok ()) := by
    unfold Client.dataReceived
    simp only [feed, Proc.andThen] at hz
    rcases hq : CBus.dataReceived maxBufferSize (Client.handle (Mqtt.cbusHook now)) l ⟨[], s⟩ with ⟨c, o', r⟩
    rw [hq] at hz
    cases r <;> simp_all
  refine ⟨s', o, by simp [daemonStep, hd], h2, fun hb => ?_⟩
  obtain ⟨o', g1, g2⟩ := hi hb s
  simp only [runPackets, Proc.andThen, g1, Prod.mk.injEq, List.append_nil] at h1
  obtain ⟨rfl, rfl, -⟩ := h1
  exact ⟨rfl, g2⟩

/-- C180 with all else that happens: over every history of the daemon while it is connected to the PCI, with any messages from the
broker, connections to it and times to tell, each line from the PCI in one piece: the history without the remarks does the same, but
for the calls of the two handlers, and ends in the same state. -/
theorem C180_history (u : UniTable) (loads : Bytes → Option JVal) (now : Nat → PyDateTime) (hnow : ∀ n, DateTimeOk (now n)) :
    ∀ (items : List (Bool × DaemonStep)) (_ : ∀ i ∈ items, Befalls i.1 i.2) (s : Client) (_ : Up s),
    let a := daemonSteps u loads now (items.map (·.2)) ⟨[], s⟩
    let b := daemonSteps u loads now ((items.filter (·.1)).map (·.2)) ⟨[], s⟩
    a.1 = b.1 ∧ a.2.filter besides = b.2.filter besides
  | [], _, _, _ => ⟨rfl, rfl⟩
  | (f, x) :: items, hi, s, hu => by
    have ih := C180_history u loads now hnow items (fun i h => hi i (by simp [h]))
    have hx := hi (f, x) (by simp)
    simp only at hx
    have one : ∃ s' o, daemonStep u loads now x ⟨[], s⟩ = (⟨[], s'⟩, o) ∧ Up s' ∧ (f = false → s' = s ∧ o.filter besides = []) := by
      have hcy := daemonStep_cycles u loads now x ⟨[], s⟩ hu.2
      cases hx with
      | receive _ l h hl => exact receive_line u loads now hnow s hu f l h hl
      | tick => exact ⟨_, _, rfl, ⟨connected_rel.clockDatetime now none s hu.1, hcy.lt⟩, by simp⟩
      | broker labels =>
        exact ⟨{ s with mqttApi := true }, _, by simp only [daemonStep, onConn, C66_connect]; rfl, hu, by simp⟩
      | message topic payload => exact ⟨_, _, rfl, ⟨connected_rel.onMessage u loads topic payload s hu.1, hcy.lt⟩, by simp⟩
    obtain ⟨s', o, h1, h2, h3⟩ := one
    obtain ⟨i1, i2⟩ := ih s' h2
    cases f with
    | true =>
      simp only [List.map_cons, List.filter_cons_of_pos, daemonSteps, h1, List.filter_append]
      exact ⟨i1, by rw [i2]⟩
    | false =>
      obtain ⟨rfl, h4⟩ := h3 rfl
      have e3 : ((false, x) :: items).filter (·.1) = items.filter (·.1) := by simp
      simp only [e3, List.map_cons, daemonSteps, h1, List.filter_append, h4, List.nil_append]
      exact ⟨i1, i2⟩

/-- A message from the broker is carried out once, though the PCI refuses it. -/
example :
    let run (xs : List DaemonStep) := daemonSteps .ascii (fun _ => some (onWith 300)) (fun _ => someTime) xs
      ⟨[], { connected := true, future := .pending, mqttApi := true }⟩
    let a := run [.message "homeassistant/light/cbus_7/set".toList [], .receive (ascii "h#"), .receive (ascii "!"), .tick]
    let b := run [.message "homeassistant/light/cbus_7/set".toList [], .tick]
    a.1 = b.1 ∧ a.2.filter besides = b.2 ∧ (writesOf a.2).length = 2 ∧ a.2.length = b.2.length + 2 := by
  decide +kernel

end CBus.Props
