import Verif.Props.SerialLine
import Verif.Props.Struck

/-! # C173: a serial line and a socket make a difference only after an exception -/

namespace CBus.Props
open CBus CBus.Spec

/-- A serial line: all that is done until the protocol raises, and what is done with the pieces behind. -/
theorem serial_feed {π : Type} (hook : Event → Proc Client (Eff π) Unit) : ∀ (ds : List Bytes) (c c' : Conn Client)
    (o : List (Eff π)) (r : Py Unit), feed maxBufferSize (Client.handle hook) ds c = (c', o, r) →
    (r = .ok () → Client.serialSession hook ds c = (c', o)) ∧
    ∀ e, r = .error e → ∃ (pre : List Bytes) (d : Bytes) (post : List Bytes) (c1 : Conn Client) (o1 o2 : List (Eff π)),
      ds = pre ++ d :: post ∧ feed maxBufferSize (Client.handle hook) pre c = (c1, o1, .ok ()) ∧
      Client.dataReceived hook d c1 = (c', o2, .error e) ∧ o = o1 ++ o2 ∧
      Client.serialSession hook ds c = ((Client.serialSession hook post c').1, o ++ (Client.serialSession hook post c').2)
  | [], c, c', o, r, h => by
    simp only [feed, Prod.mk.injEq] at h
    obtain ⟨rfl, rfl, rfl⟩ := h
    exact ⟨fun _ => rfl, fun e he => by cases he⟩
  | d :: ds, c, c', o, r, h => by
    have hdef : ∀ (d : Bytes) c, CBus.dataReceived maxBufferSize (Client.handle hook) d c = Client.dataReceived hook d c :=
      fun _ _ => rfl
    simp only [feed, Proc.andThen, hdef] at h
    generalize hy : Client.dataReceived hook d c = y at h
    obtain ⟨c1, o1, r1⟩ := y
    cases r1 with
    | error e =>
      simp only [Prod.mk.injEq] at h
      obtain ⟨rfl, rfl, rfl⟩ := h
      refine ⟨(by intro h; cases h), fun e' he => ?_⟩
      cases he
      exact ⟨[], d, ds, c, [], o1, rfl, rfl, hy, rfl, by simp only [Client.serialSession, hy]⟩
    | ok u =>
      simp only at h
      generalize hz : feed maxBufferSize (Client.handle hook) ds c1 = z at h
      obtain ⟨c2, o2, r2⟩ := z
      simp only [Prod.mk.injEq] at h
      obtain ⟨rfl, rfl, rfl⟩ := h
      obtain ⟨i1, i2⟩ := serial_feed hook ds c1 c2 o2 r2 hz
      constructor
      · intro hr
        simp only [Client.serialSession, hy, i1 hr]
      · intro e he
        obtain ⟨pre, d', post, c3, o3, o4, k1, k2, k3, k4, k5⟩ := i2 e he
        refine ⟨d :: pre, d', post, c3, o1 ++ o3, o4, by rw [k1]; rfl, ?_, k3, by rw [k4, List.append_assoc], ?_⟩
        · simp only [feed, Proc.andThen, hdef, hy, k2]
        · simp only [Client.serialSession, hy, k5, List.append_assoc]

/-- C173: if the protocol does not raise then a serial line and a socket are the same. -/
theorem C173_same (now : Nat → PyDateTime) (c : Conn Client) (hc : c.st.connected = true) (hf : c.st.future = .pending)
    (chunks : List Bytes) (h : (feed maxBufferSize (Client.handle (Mqtt.cbusHook now)) chunks c).2.2 = .ok ()) :
    Client.serialSession (Mqtt.cbusHook now) chunks c = Client.tcpSession (Mqtt.cbusHook now) chunks c := by
  generalize hz : feed maxBufferSize (Client.handle (Mqtt.cbusHook now)) chunks c = z at h
  obtain ⟨c', o, r⟩ := z
  simp only at h
  subst h
  rw [(serial_feed _ chunks c c' o _ hz).1 rfl, tcp_feed now chunks c c' o _ hc hf hz]

/-- C173: whatever is received, over a serial line all is done that is done over a socket, in the same order, and
then perhaps more. -/
theorem C173_more (now : Nat → PyDateTime) (c : Conn Client) (hc : c.st.connected = true) (hf : c.st.future = .pending)
    (chunks : List Bytes) :
    ∃ more, (Client.serialSession (Mqtt.cbusHook now) chunks c).2 = (Client.tcpSession (Mqtt.cbusHook now) chunks c).2 ++ more := by
  generalize hz : feed maxBufferSize (Client.handle (Mqtt.cbusHook now)) chunks c = z
  obtain ⟨c', o, r⟩ := z
  obtain ⟨i1, i2⟩ := serial_feed _ chunks c c' o r hz
  rw [tcp_feed now chunks c c' o r hc hf hz]
  cases r with
  | ok u => exact ⟨[], by rw [i1 rfl]; simp⟩
  | error e =>
    obtain ⟨pre, d, post, c1, o1, o2, -, -, -, -, k⟩ := i2 e rfl
    exact ⟨_, by rw [k]⟩

/-- C173: where they differ, there is a first piece over which the protocol raises. With it the socket is lost and
nothing more is done; over the serial line the pieces behind it are handled as if they came next. -/
theorem C173_after (now : Nat → PyDateTime) (c : Conn Client) (hc : c.st.connected = true) (hf : c.st.future = .pending)
    (chunks : List Bytes)
    (h : Client.serialSession (Mqtt.cbusHook now) chunks c ≠ Client.tcpSession (Mqtt.cbusHook now) chunks c) :
    ∃ (pre : List Bytes) (d : Bytes) (post : List Bytes) (c1 c2 : Conn Client) (o1 o2 : List (Eff MqttEff)) (e : PyErr),
      chunks = pre ++ d :: post ∧ feed maxBufferSize (Client.handle (Mqtt.cbusHook now)) pre c = (c1, o1, .ok ()) ∧
      Client.dataReceived (Mqtt.cbusHook now) d c1 = (c2, o2, .error e) ∧
      Client.tcpSession (Mqtt.cbusHook now) chunks c = ({ c2 with st := lost c2.st }, o1 ++ o2) ∧
      Client.serialSession (Mqtt.cbusHook now) chunks c =
        ((Client.serialSession (Mqtt.cbusHook now) post c2).1, o1 ++ o2 ++ (Client.serialSession (Mqtt.cbusHook now) post c2).2) := by
  generalize hz : feed maxBufferSize (Client.handle (Mqtt.cbusHook now)) chunks c = z
  obtain ⟨c', o, r⟩ := z
  cases r with
  | ok u => exact absurd (C173_same now c hc hf chunks (by rw [hz])) h
  | error e =>
    obtain ⟨pre, d, post, c1, o1, o2, k1, k2, k3, k4, k5⟩ := (serial_feed _ chunks c c' o _ hz).2 e rfl
    refine ⟨pre, d, post, c1, c', o1, o2, e, k1, k2, k3, ?_, ?_⟩
    · rw [tcp_feed now chunks c c' o _ hc hf hz, k4]
    · rw [k5, k4]

/-- So damaged reports cost only themselves over a serial line, too (but for the two characters of C171). -/
theorem C173_damaged (now : Nat → PyDateTime) (hnow : ∀ n, DateTimeOk (now n)) (s : Client) (hu : Up s)
    (ha : s.mqttApi = true) (hf : s.future = .pending) (items : List (Option PM × Bytes))
    (hi : ∀ i ∈ items, Struck false i.1 i.2) (chunks : List Bytes) (hc : chunks.flatten = (items.map (·.2)).flatten) (n : Nat)
    (hl : ∀ i ∈ items, i.2.length ≤ n) (hd : ∀ d ∈ chunks, d.length + n ≤ 257) :
    messagesOf (Client.serialSession (Mqtt.cbusHook now) chunks ⟨[], s⟩).2 = items.flatMap fun i => toldBy i.1 := by
  obtain ⟨r, h1, h2, -, -⟩ := C171_partial now hnow s hu ha items hi chunks hc n hl hd
  rw [C173_same now ⟨[], s⟩ hu.1 hf chunks (by rw [h1]; exact h2)]
  exact (C171_tcp_partial now hnow s hu ha hf items hi chunks hc n hl hd).2.2

/-- Reports in pieces that fit, and a piece that does not: over the socket nothing is heard after it. -/
example :
    let s : Client := { connected := true, mqttApi := true, future := .pending }
    let good := ascii "05053800790144\r\n"
    let long := List.replicate 257 (0x30 : UInt8)
    let serial := Client.serialSession (Mqtt.cbusHook fun _ => someTime) [good, long, good] ⟨[], s⟩
    let tcp := Client.tcpSession (Mqtt.cbusHook fun _ => someTime) [good, long, good] ⟨[], s⟩
    messagesOf serial.2 = messagesOf tcp.2 ++ messagesOf tcp.2 ∧ (messagesOf tcp.2).length = 2 ∧ serial.1 = ⟨[], s⟩ ∧
    tcp.1 = ⟨[], lost s⟩ ∧
    Client.serialSession (Mqtt.cbusHook fun _ => someTime) [good, good] ⟨[], s⟩ =
      Client.tcpSession (Mqtt.cbusHook fun _ => someTime) [good, good] ⟨[], s⟩ := by decide +kernel

end CBus.Props
