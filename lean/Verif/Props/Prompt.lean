import Verif.Props.Burst

/-! # C165: a report is published when its last character arrives -/

namespace CBus.Props
open CBus CBus.Spec

variable {π : Type}

/-- `fits_short`, when not all has arrived yet. -/
theorem fits_begun {σ ω : Type} {handle : Bytes → Proc σ ω Int} {G : Bytes → σ → Prop} {M : Nat} {I : σ → Prop}
    (hc : Chunkable handle G) (hM : 0 < M) (limit : Nat) (z : Bytes) : ∀ (ds ms : List Bytes), (∀ m ∈ ms, Msg handle G M I m) →
    ∀ (c : Conn σ), I c.st → c.buf.length < M → c.buf ++ ds.flatten ++ z = ms.flatten →
    (∀ d ∈ ds, d.length + M ≤ limit + 1) → Fits limit handle ds c := by
  intro ds
  induction ds with
  | nil => intros; trivial
  | cons d ds ih =>
    intro ms hms c hI hb he hd
    have h1 := hd d (by simp)
    have hlen : c.buf.length + d.length ≤ limit := by omega
    refine ⟨hlen, fun c' o h => ?_⟩
    rw [List.flatten_cons, ← List.append_assoc, List.append_assoc _ _ z] at he
    obtain ⟨done, left, p, e1, e2, e3, -, e5, e6⟩ := deliver hc hM ms hms c.st hI _ _ he.symm
    unfold dataReceived at h
    rw [if_neg (by omega), if_neg (by omega), e6] at h
    simp only [Prod.mk.injEq] at h
    obtain ⟨rfl, -, -⟩ := h
    exact ih left (fun m hm => hms m (by rw [e1]; exact List.mem_append_right _ hm)) _ e5 e3 (by rw [List.append_assoc]; exact e2)
      (fun x hx => hd x (List.mem_cons_of_mem _ hx))

theorem line_msg (hook : Event → Proc Client (Eff π) Unit) (I : Client → Prop)
    (hI : ∀ p s, I s → (Client.onPacket hook p s).2.2 = .ok () ∧ I (Client.onPacket hook p s).1) (n : Nat)
    {l : Bytes} {p : Packet} (h : LineFor l p) (hn : l.length ≤ n) :
    Msg (Client.handle hook) (fun b s => false = true → NoBareCal (fun _ => true) b s) n I l := by
  obtain ⟨h1, h2⟩ := h
  refine ⟨h1, hn, fun s _ rest h => absurd h (by decide), fun s hs => ?_⟩
  obtain ⟨g1, g2⟩ := hI p s hs
  refine ⟨(Client.onPacket hook p s).1, (Client.onPacket hook p s).2.1, g2, fun rest => ?_⟩
  unfold Client.handle handleData
  rw [show (!false) = true from rfl, h2]
  generalize hr : Client.onPacket hook p s = r at g1
  obtain ⟨s1, o1, r1⟩ := r
  simp only at g1
  subst g1
  simp [Proc.andThen, pure, hr]

/-- The beginning of a line is waited with. -/
theorem line_waits {l : Bytes} {p : Packet} (h : LineFor l p) {x y : Bytes} (hl : l = x ++ y) (hy : y ≠ []) :
    decodePacket x true true true = .ok (none, 0) := by
  have hc := handleData_chunkable (ω := Eff Empty) (σ := Client) (fun _ => true) (fun _ => pure ()) (fun _ => pure ()) false
  have hm : handleData (ω := Eff Empty) (σ := Client) false (fun _ => true) (fun _ => pure ()) (fun _ => pure ()) (x ++ y) {} =
      ({}, [], .ok (l.length : Int)) := by
    unfold handleData
    have := h.2 []
    rw [List.append_nil, hl] at this
    rw [show (!false) = true from rfl, this, hl]
    simp [Proc.andThen, pure]
  by_cases hz : (handleData (ω := Eff Empty) (σ := Client) false (fun _ => true) (fun _ => pure ()) (fun _ => pure ()) x {}).2.2 = .ok 0
  · obtain ⟨q, n, e1, e2⟩ := handleData_ok _ _ _ hz
    have hn : n = 0 := by omega
    subst hn
    cases q with
    | none => exact e1
    | some q => exact absurd (C34_progress _ _ _ _ _ _ e1) (by omega)
  · exfalso
    have e1 := hc.stable x y {} (fun h => absurd h (by decide)) hz
    rw [hm] at e1
    have e3 := hc.pos x y {} (l.length : Int) (fun h => absurd h (by decide)) (by rw [← e1])
    have := List.length_pos_iff.mpr hy
    rw [hl, List.length_append] at e3
    omega

/-- C165: however reports are cut into (short) pieces, at any time the messages that have been sent to the broker are exactly
those of the reports whose last character has arrived: none is held back until something else comes, none is sent before it is
complete. Here `items` are the reports that have come whole and `p` is what has come of the next one. -/
theorem C165_prompt (now : Nat → PyDateTime) (hnow : ∀ n, DateTimeOk (now n)) (s : Client) (hu : Up s)
    (ha : s.mqttApi = true) (hf : s.future = .pending) (items : List (PM × Bytes)) (hi : ∀ i ∈ items, EventLine i.1 i.2)
    (next : PM × Bytes) (hq : EventLine next.1 next.2) (p : Bytes) (hp : p <+: next.2) (hne : p ≠ next.2)
    (chunks : List Bytes) (hc : chunks.flatten = (items.map (·.2)).flatten ++ p) (n : Nat)
    (hl : ∀ i ∈ items, i.2.length ≤ n) (hln : next.2.length ≤ n) (hd : ∀ d ∈ chunks, d.length + n ≤ 257) :
    let r := Client.tcpSession (Mqtt.cbusHook now) chunks ⟨[], s⟩
    r.1.st.connected = true ∧ r.1.st.future = .pending ∧ r.1.buf = p ∧
    messagesOf r.2 = items.flatMap fun i => salMessages i.1.src (i.1.sals.map received) := by
  obtain ⟨y, hy⟩ := hp
  have hy0 : y ≠ [] := by
    rintro rfl
    rw [List.append_nil] at hy
    exact hne hy
  have hI : ∀ p s, Up s → (Client.onPacket (Mqtt.cbusHook now) p s).2.2 = .ok () ∧ Up (Client.onPacket (Mqtt.cbusHook now) p s).1 :=
    fun p s hs => ⟨(C62_packet now hnow p s hs).2, (cbus_up now hnow p s hs).1⟩
  have h0 : 0 < n := by
    have := List.length_pos_iff.mpr (eventLine_lineFor hq).1
    omega
  have hfit : Fits maxBufferSize (Client.handle (Mqtt.cbusHook now)) chunks ⟨[], s⟩ := by
    refine fits_begun (handleData_chunkable _ _ _ false) h0 256 y chunks (items.map (·.2) ++ [next.2]) ?_ ⟨[], s⟩ hu
      (by simpa using h0) ?_ hd
    · intro m hm
      rcases List.mem_append.1 hm with hm | hm
      · obtain ⟨i, hi', rfl⟩ := List.mem_map.1 hm
        exact line_msg _ Up hI n (eventLine_lineFor (hi i hi')) (hl i hi')
      · rw [List.mem_singleton.1 hm]
        exact line_msg _ Up hI n (eventLine_lineFor hq) hln
    · simp [hc, hy]
  let its : List (Bytes × Packet) :=
    items.map fun i => (i.2, Packet.pm { i.1 with sals := i.1.sals.map received, conf := none })
  obtain ⟨s', o, h1, -, -, -, h3⟩ := runPackets_cbus now hnow (its.map (·.2)) s hu
  obtain ⟨rest, g1, g2⟩ := feed_whole (handleData_chunkable _ _ _ false) maxBufferSize chunks ⟨[], s⟩
    (processBuffer_nil _ _) hfit (by simp)
  have h4 := Client.lines (Mqtt.cbusHook now) its p s s' o (by
    intro i hi'
    simp only [its, List.mem_map] at hi'
    obtain ⟨j, hj, rfl⟩ := hi'
    exact eventLine_lineFor (hi j hj)) h1
  have hw : processBuffer (Client.handle (Mqtt.cbusHook now)) p s' = (⟨p, s'⟩, [], .ok ()) := by
    refine processBuffer_wait ?_
    unfold Client.handle handleData
    rw [show (!false) = true from rfl, line_waits (eventLine_lineFor hq) hy.symm hy0]
    simp [Proc.andThen, pure]
  rw [hw] at h4
  have hits : its.map (·.1) = items.map (·.2) := by simp [its, Function.comp_def]
  rw [hits, ← hc] at h4
  simp only [List.nil_append] at g1
  change processBuffer (Client.handle (Mqtt.cbusHook now)) _ _ = _ at g1
  rw [h4] at g1
  change _ = (Conn.mk ((feed maxBufferSize (Client.handle (Mqtt.cbusHook now)) chunks ⟨[], s⟩).1.buf ++ rest) _, _) at g1
  change (feed maxBufferSize (Client.handle (Mqtt.cbusHook now)) chunks ⟨[], s⟩).2.2 = .ok () → _ at g2
  generalize hz : feed maxBufferSize (Client.handle (Mqtt.cbusHook now)) chunks ⟨[], s⟩ = z at g1 g2
  have hz' : feed maxBufferSize (handleData false (fun _ => true) (fun _ => pure ()) (Client.onPacket (Mqtt.cbusHook now)))
      chunks ⟨[], s⟩ = z := hz
  rw [hz'] at g1
  obtain ⟨c, o', r⟩ := z
  simp only [Prod.mk.injEq, Conn.mk.injEq] at g1 g2
  obtain ⟨⟨e1, e2⟩, e3, e4⟩ := g1
  subst e4
  rw [g2 rfl, List.append_nil] at e1
  obtain ⟨k, -, h5⟩ := (C102_daemon now hnow s hu [] chunks c o' _).1 hz
  simp only [tcp_feed now chunks ⟨[], s⟩ c o' _ hu.1 hf hz]
  refine ⟨by rw [h5]; exact hu.1, by rw [h5]; exact hf, e1.symm, ?_⟩
  rw [← e3, List.append_nil, h3, ha, if_pos rfl]
  simp only [its, List.map_map, List.flatMap_map, List.flatMap_assoc]
  rfl

/-- C165: and it is the piece that brings the last character that brings about the messages: with the beginning of a report
received, the rest of it gives exactly its messages. -/
theorem C165_last (now : Nat → PyDateTime) (hnow : ∀ n, DateTimeOk (now n)) (s : Client) (hu : Up s)
    (ha : s.mqttApi = true) (q : PM) (l : Bytes) (hq : EventLine q l) (p d : Bytes) (h : p ++ d = l) (hl : l.length ≤ 256) :
    let r := Client.dataReceived (Mqtt.cbusHook now) d ⟨p, s⟩
    r.2.2 = .ok () ∧ r.1.buf = [] ∧ messagesOf r.2.1 = salMessages q.src (q.sals.map received) := by
  have hlen : p.length + d.length ≤ 256 := by rw [← h, List.length_append] at hl; exact hl
  obtain ⟨s', o, h1, -, -, -, h3⟩ := runPackets_cbus now hnow
    ([(l, Packet.pm { q with sals := q.sals.map received, conf := none })].map (·.2)) s hu
  have h4 := Client.lines (Mqtt.cbusHook now) [(l, Packet.pm { q with sals := q.sals.map received, conf := none })] [] s s' o
    (by intro i hi; rw [List.mem_singleton.1 hi]; exact eventLine_lineFor hq) h1
  simp only [List.map_cons, List.map_nil, List.flatten_cons, List.flatten_nil, List.append_nil, processBuffer_nil] at h4
  have hr : Client.dataReceived (Mqtt.cbusHook now) d ⟨p, s⟩ = (⟨[], s'⟩, o, .ok ()) := by
    show CBus.dataReceived 256 (Client.handle (Mqtt.cbusHook now)) d ⟨p, s⟩ = _
    unfold CBus.dataReceived
    rw [if_neg (by omega), if_neg (by simp only; omega), h]
    exact h4
  simp only [hr]
  refine ⟨trivial, trivial, ?_⟩
  rw [h3, ha, if_pos rfl]
  simp only [List.map_cons, List.map_nil, List.flatMap_cons, List.flatMap_nil, List.append_nil]
  rfl

/-- A report and all but the last character of another: two messages (the light and its binary sensor), and two more with the
last character. -/
example :
    let s : Client := { connected := true, mqttApi := true, future := .pending }
    let l := ascii "05053800790144\r\n"
    let r := Client.tcpSession (Mqtt.cbusHook fun _ => someTime) [l.take 3, l.drop 3 ++ l.take 7, (l.drop 7).dropLast] ⟨[], s⟩
    EventLine lampOn l ∧ l.dropLast <+: l ∧ l.dropLast ≠ l ∧ r.1.buf = l.dropLast ∧ (messagesOf r.2).length = 2 ∧
    (messagesOf (Client.dataReceived (Mqtt.cbusHook fun _ => someTime) [0x0a] r.1).2.1).length = 2 := by
  refine ⟨lampOn_line, List.dropLast_prefix _, ?_, ?_, ?_, ?_⟩ <;> decide +kernel

end CBus.Props
