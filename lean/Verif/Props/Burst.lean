import Verif.Model.Tcp
import Verif.Props.Joint
import Verif.Props.Session
import Verif.Props.Histories

/-! # C110: bursts, and clients over TCP -/

namespace CBus.Props
open CBus CBus.Spec

variable {π : Type}

/-! ## Pieces that fit -/

/-- Pieces short enough to leave room for a message that is not complete fit into the
receive buffer. -/
theorem fits_short {σ ω : Type} {handle : Bytes → Proc σ ω Int} {G : Bytes → σ → Prop} {M : Nat} {I : σ → Prop}
    (hc : Chunkable handle G) (hM : 0 < M) (limit : Nat) : ∀ (ds ms : List Bytes), (∀ m ∈ ms, Msg handle G M I m) →
    ∀ (c : Conn σ), I c.st → c.buf.length < M → c.buf ++ ds.flatten = ms.flatten → (∀ d ∈ ds, d.length + M ≤ limit + 1) →
    Fits limit handle ds c := by
  intro ds
  induction ds with
  | nil => intros; trivial
  | cons d ds ih =>
    intro ms hms c hI hb he hd
    have h1 := hd d (by simp)
    have hlen : c.buf.length + d.length ≤ limit := by omega
    refine ⟨hlen, fun c' o h => ?_⟩
    rw [List.flatten_cons, ← List.append_assoc] at he
    obtain ⟨done, left, p, e1, e2, e3, -, e5, e6⟩ := deliver hc hM ms hms c.st hI _ _ he.symm
    unfold dataReceived at h
    rw [if_neg (by omega), if_neg (by omega), e6] at h
    simp only [Prod.mk.injEq] at h
    obtain ⟨rfl, -, -⟩ := h
    exact ih left (fun m hm => hms m (by rw [e1]; exact List.mem_append_right _ hm)) _ e5 e3 e2
      (fun x hx => hd x (List.mem_cons_of_mem _ hx))

theorem fits_lines (hook : Event → Proc Client (Eff π) Unit) (I : Client → Prop)
    (hI : ∀ p s, I s → (Client.onPacket hook p s).2.2 = .ok () ∧ I (Client.onPacket hook p s).1)
    (n : Nat) (hn : 0 < n) (items : List (Bytes × Packet)) (hl : ∀ i ∈ items, LineFor i.1 i.2 ∧ i.1.length ≤ n)
    (chunks : List Bytes) (s : Client) (hs : I s) (hc : chunks.flatten = (items.map (·.1)).flatten)
    (hd : ∀ d ∈ chunks, d.length + n ≤ 257) : Fits maxBufferSize (Client.handle hook) chunks ⟨[], s⟩ := by
  refine fits_short (handleData_chunkable _ _ _ false) hn 256 chunks (items.map (·.1)) ?_ ⟨[], s⟩ hs (by simpa using hn)
    (by simpa using hc) hd
  intro m hm
  obtain ⟨i, hi, rfl⟩ := List.mem_map.1 hm
  obtain ⟨⟨h1, h2⟩, h3⟩ := hl i hi
  refine ⟨h1, h3, fun s _ rest h => absurd h (by decide), fun s hs => ?_⟩
  obtain ⟨g1, g2⟩ := hI i.2 s hs
  refine ⟨(Client.onPacket hook i.2 s).1, (Client.onPacket hook i.2 s).2.1, g2, fun rest => ?_⟩
  unfold handleData
  rw [show (!false) = true from rfl, h2]
  generalize hr : Client.onPacket hook i.2 s = r at g1
  obtain ⟨s1, o1, r1⟩ := r
  simp only at g1
  subst g1
  simp [Proc.andThen, pure, hr]

/-- Reports of at most `n` characters in pieces of at most `257 - n` fit: there are no
more than `n - 1` characters of an incomplete line before a piece. -/
theorem fits_reports (hook : Event → Proc Client (Eff π) Unit) (I : Client → Prop)
    (hI : ∀ p s, I s → (Client.onPacket hook p s).2.2 = .ok () ∧ I (Client.onPacket hook p s).1) (s : Client) (hs : I s)
    (items : List (PM × Bytes)) (hi : ∀ i ∈ items, EventLine i.1 i.2) (chunks : List Bytes)
    (hc : chunks.flatten = (items.map (·.2)).flatten) (n : Nat) (hl : ∀ i ∈ items, i.2.length ≤ n)
    (hd : ∀ d ∈ chunks, d.length + n ≤ 257) : Fits maxBufferSize (Client.handle hook) chunks ⟨[], s⟩ := by
  cases items with
  | nil =>
    simp only [List.map_nil, List.flatten_nil, List.flatten_eq_nil_iff] at hc
    refine fits_lines hook I hI 1 (by decide) [] (by simp) chunks s hs (by simpa using hc)
      (fun d h => by rw [hc d h]; decide)
  | cons i items =>
    have h0 : 0 < n := by
      have h1 := (eventLine_lineFor (hi i (by simp))).1
      have h2 := hl i (by simp)
      have := List.length_pos_iff.mpr h1
      omega
    refine fits_lines hook I hI n h0
      ((i :: items).map fun i => (i.2, Packet.pm { i.1 with sals := i.1.sals.map received, conf := none })) ?_ chunks s hs
      (by rw [hc]; simp [Function.comp_def]) hd
    intro j hj
    obtain ⟨k, hk, rfl⟩ := List.mem_map.1 hj
    exact ⟨eventLine_lineFor (hi k hk), hl k hk⟩

/-- C47 with lengths only: reports of at most `n` characters that arrive in pieces of at
most `257 - n`. -/
theorem C47_short (now : Nat → PyDateTime) (hnow : ∀ n, DateTimeOk (now n)) (s : Client) (hu : Up s)
    (items : List (PM × Bytes)) (hi : ∀ i ∈ items, EventLine i.1 i.2) (chunks : List Bytes)
    (hc : chunks.flatten = (items.map (·.2)).flatten) (n : Nat) (hl : ∀ i ∈ items, i.2.length ≤ n)
    (hd : ∀ d ∈ chunks, d.length + n ≤ 257) :
    let r := feed maxBufferSize (Client.handle (π := π) (Client.baseHook now)) chunks ⟨[], s⟩
    r.2.2 = .ok () ∧ r.1.buf = [] ∧
    eventsOf r.2.1 = items.flatMap fun i => (i.1.sals.map received).filterMap (salEvent i.1.src) :=
  C47_stream now hnow s hu items hi chunks hc (fits_reports _ Up (fun p s hs => by
    obtain ⟨s', o, h1, h2, -⟩ := runPackets_base (π := π) now hnow [p] s hs
    simp only [runPackets, Proc.andThen] at h1
    generalize Client.onPacket (π := π) (Client.baseHook now) p s = z at h1
    obtain ⟨s1, o1, r1⟩ := z
    cases r1 with
    | error e => simp at h1
    | ok u =>
      simp only [Prod.mk.injEq] at h1
      obtain ⟨rfl, -, -⟩ := h1
      exact ⟨rfl, h2⟩) s hu items hi chunks hc n hl hd)

/-- C64 with lengths only. -/
theorem C64_short (now : Nat → PyDateTime) (hnow : ∀ n, DateTimeOk (now n)) (s : Client) (hu : Up s)
    (ha : s.mqttApi = true) (items : List (PM × Bytes)) (hi : ∀ i ∈ items, EventLine i.1 i.2) (chunks : List Bytes)
    (hc : chunks.flatten = (items.map (·.2)).flatten) (n : Nat) (hl : ∀ i ∈ items, i.2.length ≤ n)
    (hd : ∀ d ∈ chunks, d.length + n ≤ 257) :
    let r := feed maxBufferSize (Client.handle (Mqtt.cbusHook now)) chunks ⟨[], s⟩
    r.2.2 = .ok () ∧ r.1.buf = [] ∧
    messagesOf r.2.1 = items.flatMap fun i => salMessages i.1.src (i.1.sals.map received) :=
  C64_stream now hnow s hu ha items hi chunks hc
    (fits_reports _ Up (fun p s hs => ⟨(C62_packet now hnow p s hs).2, (cbus_up now hnow p s hs).1⟩) s hu items hi chunks hc n
      hl hd)

example :
    let all := (List.replicate 16 (ascii "05053800790144\r\n")).flatten
    (all.take 241).length + 16 ≤ 257 ∧
    (feed maxBufferSize (Client.handle (π := Empty) (Client.baseHook fun _ => someTime)) [all.take 241, all.drop 241]
      ⟨[], { connected := true }⟩).2 = (List.replicate 16 (.event (.lightingOn (some 5) 1)), .ok ()) := by decide +kernel

/-! ## TCP -/

/-- A client whose connection is lost. -/
def lost (s : Client) : Client := { s with connected := false, future := .done }

theorem tcp_down (hook : Event → Proc Client (Eff π) Unit) : ∀ (ds : List Bytes) (c : Conn Client), c.st.connected = false →
    Client.tcpSession hook ds c = (c, []) := by
  intro ds
  induction ds with
  | nil => intros; rfl
  | cons d ds ih =>
    intro c h
    simp only [Client.tcpSession, Client.tcpReceived, h, Bool.false_eq_true, if_false, ih c h, List.append_nil]

/-- Over TCP a daemon receives piece after piece until one raises; then the connection is
lost. -/
theorem tcp_feed (now : Nat → PyDateTime) : ∀ (ds : List Bytes) (c c' : Conn Client) (o : List (Eff MqttEff)) (r : Py Unit),
    c.st.connected = true → c.st.future = .pending →
    feed maxBufferSize (Client.handle (Mqtt.cbusHook now)) ds c = (c', o, r) →
    Client.tcpSession (Mqtt.cbusHook now) ds c =
      (match r with | .ok _ => c' | .error _ => { c' with st := lost c'.st }, o) := by
  intro ds
  induction ds with
  | nil =>
    intro c c' o r _ _ h
    simp only [feed, Prod.mk.injEq] at h
    obtain ⟨rfl, rfl, rfl⟩ := h
    rfl
  | cons d ds ih =>
    intro c c' o r hu hf h
    have hk := daemon_linkRel.dataReceived (daemon_linkRel.cbusHook now) d c
    simp only [feed, Proc.andThen] at h
    have hdef : CBus.dataReceived maxBufferSize (Client.handle (Mqtt.cbusHook now)) d c =
      Client.dataReceived (Mqtt.cbusHook now) d c := rfl
    rw [hdef] at h
    simp only [Client.tcpSession, Client.tcpReceived, hu, if_true]
    generalize Client.dataReceived (Mqtt.cbusHook now) d c = z at h hk
    obtain ⟨c1, o1, r1⟩ := z
    obtain ⟨k1, k2, -⟩ := hk
    simp only at k1 k2
    rw [hu] at k1
    rw [hf] at k2
    cases r1 with
    | error e =>
      simp only [Prod.mk.injEq] at h
      obtain ⟨rfl, rfl, rfl⟩ := h
      simp only [Client.connectionLost, k2]
      rw [tcp_down _ ds _ rfl]
      simp only [List.append_nil]
      rfl
    | ok u =>
      simp only at h
      generalize hz : feed maxBufferSize (Client.handle (Mqtt.cbusHook now)) ds c1 = z at h
      obtain ⟨c2, o2, r2⟩ := z
      simp only [Prod.mk.injEq] at h
      obtain ⟨rfl, rfl, rfl⟩ := h
      have := ih c1 _ _ _ k1 k2 hz
      simp only [this]

/-- C110, all of it: what a daemon does with whatever it receives over TCP is what is
written down for conversations (C102), up to the first piece that raises; then, and only
then, the connection is lost and the future for which `_main` waits (cmqttd.py:469) is
resolved, with which the daemon ends. -/
theorem C110_tcp (now : Nat → PyDateTime) (hnow : ∀ n, DateTimeOk (now n)) (s : Client) (hu : Up s) (hf : s.future = .pending)
    (b : Bytes) (ds : List Bytes) :
    ∃ o b' k r, Converses ⟨true, fun e => if s.mqttApi then eventMessages e else [], now⟩ b ⟨s.nextConf, s.clockReads⟩ ds o b' k r ∧
      Client.tcpSession (Mqtt.cbusHook now) ds ⟨b, s⟩ =
        (⟨b', { s with nextConf := k.codes % 20, clockReads := k.reads,
                       connected := decide (r = .ok ()), future := if r = .ok () then .pending else .done }⟩, o) := by
  generalize hz : feed maxBufferSize (Client.handle (Mqtt.cbusHook now)) ds ⟨b, s⟩ = z
  obtain ⟨c, o, r⟩ := z
  obtain ⟨k, h1, h2⟩ := (C102_daemon now hnow s hu b ds c o r).1 hz
  refine ⟨o, c.buf, k, r, h1, ?_⟩
  rw [tcp_feed now ds ⟨b, s⟩ c o r hu.1 hf hz]
  obtain ⟨cb, cs⟩ := c
  simp only at h2
  subst h2
  have := hu.1
  cases r with
  | ok u => simp [this, hf]
  | error e => simp [lost]

/-- C110 in full: a daemon that is connected to both sides over TCP, to which a network
interface reports any events, publishes all the messages for them and stays connected,
however the reports arrive. -/
def C110_claim : Prop :=
  ∀ (now : Nat → PyDateTime) (_ : ∀ n, DateTimeOk (now n)) (s : Client) (_ : Up s) (_ : s.mqttApi = true)
    (_ : s.future = .pending) (items : List (PM × Bytes)) (_ : ∀ i ∈ items, EventLine i.1 i.2) (chunks : List Bytes)
    (_ : chunks.flatten = (items.map (·.2)).flatten),
    let r := Client.tcpSession (Mqtt.cbusHook now) chunks ⟨[], s⟩
    r.1.st.connected = true ∧ r.1.st.future = .pending ∧
    messagesOf r.2 = items.flatMap fun i => salMessages i.1.src (i.1.sals.map received)

/-- C110 is false: of a burst of more than 256 characters that arrives in one piece
nothing is handled, and the daemon ends. -/
theorem C110_burst (now : Nat → PyDateTime) (s : Client) (hc : s.connected = true) (hf : s.future = .pending) (b d : Bytes)
    (ds : List Bytes) (h : 256 < d.length) :
    Client.tcpSession (Mqtt.cbusHook now) (d :: ds) ⟨b, s⟩ = (⟨b, lost s⟩, []) := by
  have h1 : feed maxBufferSize (Client.handle (Mqtt.cbusHook now)) (d :: ds) ⟨b, s⟩ = (⟨b, s⟩, [], .error .valueError) := by
    simp only [feed, Proc.andThen, (C39_overflow 256 (Client.handle (Mqtt.cbusHook now)) d ⟨b, s⟩).1 h,
      show maxBufferSize = 256 from rfl]
  exact tcp_feed now _ _ _ _ _ hc hf h1

/-- The line for a lamp that is switched on. -/
def lampOn : PM := { app := some 0x38, src := some 5, sals := [.lightOn 1] }

theorem lampOn_line : EventLine lampOn (ascii "05053800790144\r\n") := by
  refine ⟨by decide +kernel, rfl, ⟨5, rfl, by decide⟩, ascii "05053800790144", by decide +kernel, by decide +kernel⟩

theorem C110_false : ¬ C110_claim := by
  intro h
  have h1 := (h (fun _ => someTime) (fun _ => someTime_ok) { connected := true, mqttApi := true, future := .pending }
    ⟨rfl, by decide⟩ rfl rfl (List.replicate 17 (lampOn, ascii "05053800790144\r\n"))
    (fun i hi => by rw [(List.mem_replicate.1 hi).2]; exact lampOn_line)
    [(List.replicate 17 (ascii "05053800790144\r\n")).flatten] (by decide +kernel)).1
  rw [C110_burst _ _ rfl rfl _ _ _ (by decide +kernel)] at h1
  cases h1

/-- On a serial port the same burst is lost, and only that. -/
theorem C110_serial (now : Nat → PyDateTime) (s : Client) (b d : Bytes) (h : 256 < d.length) :
    Client.dataReceived (Mqtt.cbusHook now) d ⟨b, s⟩ = (⟨b, s⟩, [], .error .valueError) :=
  (C39_overflow 256 (Client.handle (Mqtt.cbusHook now)) d ⟨b, s⟩).1 h

/-- C110 if the pieces are short: lines of at most `n` characters in pieces of at most
`257 - n`, as there are no more than `n - 1` characters of an incomplete line before them.

What is missing: longer pieces, see `C110_burst`. -/
theorem C110_short_partial (now : Nat → PyDateTime) (hnow : ∀ n, DateTimeOk (now n)) (s : Client) (hu : Up s)
    (ha : s.mqttApi = true) (hf : s.future = .pending) (items : List (PM × Bytes)) (hi : ∀ i ∈ items, EventLine i.1 i.2)
    (chunks : List Bytes) (hc : chunks.flatten = (items.map (·.2)).flatten) (n : Nat) (hl : ∀ i ∈ items, i.2.length ≤ n)
    (hd : ∀ d ∈ chunks, d.length + n ≤ 257) :
    let r := Client.tcpSession (Mqtt.cbusHook now) chunks ⟨[], s⟩
    r.1.st.connected = true ∧ r.1.st.future = .pending ∧
    messagesOf r.2 = items.flatMap fun i => salMessages i.1.src (i.1.sals.map received) := by
  have hfit := fits_reports _ Up (fun p s hs => ⟨(C62_packet now hnow p s hs).2, (cbus_up now hnow p s hs).1⟩) s hu items hi
    chunks hc n hl hd
  have h := C64_stream now hnow s hu ha items hi chunks hc hfit
  generalize hz : feed maxBufferSize (Client.handle (Mqtt.cbusHook now)) chunks ⟨[], s⟩ = z at h
  obtain ⟨c, o, r⟩ := z
  obtain ⟨h1, -, h3⟩ := h
  simp only at h1 h3
  subst h1
  obtain ⟨k, -, h4⟩ := (C102_daemon now hnow s hu [] chunks c o _).1 hz
  simp only [tcp_feed now chunks ⟨[], s⟩ c o _ hu.1 hf hz]
  rw [h4]
  exact ⟨hu.1, hf, h3⟩

/-- Sixteen lines of sixteen characters in pieces of 241 and 15. -/
example :
    let s : Client := { connected := true, mqttApi := true, future := .pending }
    let all := (List.replicate 16 (ascii "05053800790144\r\n")).flatten
    let r := Client.tcpSession (Mqtt.cbusHook fun _ => someTime) [all.take 241, all.drop 241] ⟨[], s⟩
    (all.take 241).length + 16 ≤ 257 ∧ r.1 = ⟨[], s⟩ ∧ (eventsOf r.2).length = 16 ∧
    (Client.tcpSession (Mqtt.cbusHook fun _ => someTime) [ascii "050\r\n", all] ⟨[], s⟩).1.st = lost s := by decide +kernel

end CBus.Props
