import Verif.Model.Serial
import Verif.Props.Session

/-! # C151: what is received bounds what is sent -/

namespace CBus.Props
open CBus CBus.Spec

/-- A command takes at least two bytes. -/
theorem command_length {a : AppHandler} {d : Bytes} {s : Option SAL} {rest : Bytes} (h : Command a d s rest) :
    2 * s.toList.length + rest.length ≤ d.length := by
  cases h <;> simp <;> omega

theorem reads_length {a : AppHandler} {d : Bytes} {r : Py (List SAL)} (h : Reads a d r) :
    ∀ sals, r = .ok sals → 2 * sals.length ≤ d.length := by
  induction h with
  | command d s rest r h hr ih =>
    intro sals hs
    cases r with
    | error e => cases hs
    | ok l =>
      simp only [Except.map, Except.ok.injEq] at hs
      subst hs
      have h1 := command_length h
      have h2 := ih l rfl
      simp only [List.length_append]
      omega
  | refused d e h => intro sals hs; cases hs
  | stop d h1 h2 =>
    intro sals hs
    injection hs with hs
    subst hs
    simp

theorem pairs_length {t m : Bytes} (h : HexPairs t m) : t.length = 2 * m.length := by
  induction h with
  | nil => rfl
  | cons a b x t m ha hb hx h ih => simp only [List.length_cons, ih]; omega

theorem pm_length {cs : Bool} {prio : Prio} {d : Bytes} {q : PM} (h : PmAt cs prio d (.ok q)) :
    2 * q.sals.length + 2 ≤ d.length := by
  cases h with
  | packet a rest h hh sals hr hs =>
    have := reads_length hr sals rfl
    simp only [List.length_cons]
    omega

theorem payload_length {cs : Bool} {flags : UInt8} {d : Bytes} {q : PM} {n : Nat} {p : Packet}
    (h : PayloadAt cs false flags d (.ok (p, n))) (hp : p = .pm q) : 2 * q.sals.length + 2 ≤ d.length ∧ n = 0 := by
  subst hp
  generalize hr : (Except.ok (Packet.pm q, n) : Py (Packet × Nat)) = r at h
  cases h with
  | dm r hf h => cases r <;> cases hr
  | cal c n hf hd => cases hd
  | calRefused e hf hd => cases hr
  | pp r hf hd ht h => cases r <;> cases hr
  | pm r hf hd ht h =>
    cases r with
    | error e => cases hr
    | ok q' =>
      simp only [Except.map, Except.ok.injEq, Prod.mk.injEq, Packet.pm.injEq] at hr
      obtain ⟨rfl, rfl⟩ := hr
      exact ⟨pm_length h, rfl⟩
  | other hf hd ht => cases hr

theorem event_length {cs : Bool} {d : Bytes} {q : PM} {r : Packet × Nat} (h : EventAt cs d r) (hr : r.1 = .pm q) :
    2 * q.sals.length + 4 ≤ d.length ∧ r.2 = 0 := by
  cases h with
  | type => cases hr
  | short => cases hr
  | refused => cases hr
  | packet flags src d h p n hp =>
    cases p with
    | pm q' =>
      simp only [addressed, Packet.pm.injEq] at hr
      subst hr
      have := payload_length hp rfl
      simp only [List.length_cons]
      omega
    | _ => cases hr

/-- A message with commands is a line of at least twelve characters and four for each command. -/
theorem fromPci_length {d : Bytes} {q : PM} {n : Nat} (h : FromPci true true d (some (.pm q), n)) :
    4 * q.sals.length + 12 ≤ n ∧ n ≤ d.length := by
  generalize hp : ((some (Packet.pm q), n) : Option Packet × Nat) = x at h
  cases h with
  | line l rest r hl hh h =>
    simp only [Prod.mk.injEq, Option.some.injEq] at hp
    obtain ⟨hp, rfl⟩ := hp
    cases h with
    | text => cases hp
    | digits m _ hx hm =>
      have h1 := pairs_length hx
      cases hm with
      | unchecked _ _ hc _ => cases hc
      | wrong hc hs h => cases hp
      | checked m x _ hc h hb =>
        have h2 := event_length hb hp.symm
        simp only [List.length_append, List.length_cons, List.length_nil] at h1 ⊢
        omega
  | _ => cases hp

theorem clockLine_length {t : PyDateTime} {c : UInt8} {line : Bytes} (h : ClockLine t c line) : line.length = 37 := by
  obtain ⟨w, digits, -, ⟨x, h, -⟩, rfl⟩ := h
  have := pairs_length h
  simp [clockBytes] at this
  simp [this]

/-- What the daemon does is paid for: two characters for a message to the broker, four for a line to
the network. -/
def cost (o : List (Eff MqttEff)) : Nat := 2 * (messagesOf o).length + 4 * (writesOf o).length

theorem cost_append (a b : List (Eff MqttEff)) : cost (a ++ b) = cost a + cost b := by
  simp only [cost, messagesOf_append, writesOf_append, List.length_append]; omega

theorem eventMessages_length (e : Event) : (eventMessages e).length ≤ 2 := by
  cases e <;> simp [eventMessages]

/-- The lines are all as long as a line with the time. -/
def ClockLines (o : List (Eff MqttEff)) : Prop := ∀ w ∈ writesOf o, w.length = 37

variable {m : Manner MqttEff}

theorem handles_cost (hm : ∀ e, (m.says e).length ≤ 2) {es : List Event} {k k' : Count} {o : List (Eff MqttEff)}
    (h : Handles m es k o k') : cost o ≤ 4 * es.length ∧ ClockLines o := by
  induction h with
  | nil k => exact ⟨by simp [cost, messagesOf, writesOf], by simp [ClockLines, writesOf]⟩
  | clock src es k k' line o hc hl h ih =>
    refine ⟨?_, ?_⟩
    · have := ih.1
      simp only [cost, messagesOf, writesOf, List.filterMap_cons, List.length_cons] at this ⊢
      omega
    · intro w hw
      simp only [writesOf, List.filterMap_cons, List.mem_cons] at hw
      rcases hw with rfl | hw
      · exact clockLine_length hl
      · exact ih.2 w hw
  | noClock src es k k' o hc h ih =>
    refine ⟨?_, ih.2⟩
    have := ih.1
    simp only [cost, messagesOf, writesOf, List.filterMap_cons, List.length_cons] at this ⊢
    omega
  | other e es k k' o he h ih =>
    have h1 := hm e
    have h2 := ih.1
    have hx : cost (.event e :: (m.says e).map .ext ++ o) = 2 * (m.says e).length + cost o := by
      rw [List.cons_append, show (Eff.event e :: ((m.says e).map .ext ++ o) : List (Eff MqttEff)) =
        [.event e] ++ ((m.says e).map .ext ++ o) from rfl, cost_append, cost_append]
      simp only [cost, messagesOf_ext, writesOf_ext]
      simp [messagesOf, writesOf]
    refine ⟨by rw [hx, List.length_cons]; omega, fun w hw => ?_⟩
    rw [writesOf_append, List.mem_append] at hw
    rcases hw with hw | hw
    · rw [show (Eff.event e :: (m.says e).map .ext : List (Eff MqttEff)) = [.event e] ++ (m.says e).map .ext from rfl,
        writesOf_append, writesOf_ext] at hw
      simp [writesOf] at hw
    · exact ih.2 w hw

theorem clockLines_append {a b : List (Eff MqttEff)} (ha : ClockLines a) (hb : ClockLines b) : ClockLines (a ++ b) := by
  intro w hw
  rw [writesOf_append, List.mem_append] at hw
  exact hw.elim (ha w) (hb w)

theorem clockLines_nil : ClockLines [] := by simp [ClockLines, writesOf]

/-- Whoever says nothing about confirmations and errors. -/
def Terse (m : Manner MqttEff) : Prop :=
  (∀ e, (m.says e).length ≤ 2) ∧ (∀ c ok, m.says (.confirmation c ok) = []) ∧ m.says .cannotAcceptData = []

theorem packet_cost (hm : Terse m) {d : Bytes} {p : Packet} {n : Nat} (h : FromPci true true d (some p, n)) {k k' : Count}
    {o : List (Eff MqttEff)} (ho : Handles m (packetEvents p) k o k') :
    cost o + (d.drop n).length ≤ d.length ∧ ClockLines o := by
  have h0 := handles_cost hm.1 ho
  refine ⟨?_, h0.2⟩
  rw [List.length_drop]
  cases p with
  | pm q =>
    have h1 := fromPci_length h
    have h2 : (packetEvents (.pm q)).length ≤ q.sals.length := List.length_filterMap_le _ _
    omega
  | confirmation c ok =>
    cases ho with
    | other e es k k' o he h =>
      cases h
      simp [hm.2.1, cost, messagesOf, writesOf]
  | pciError =>
    cases ho with
    | other e es k k' o he h =>
      cases h
      simp [hm.2.2, cost, messagesOf, writesOf]
  | _ =>
    have := h0.1
    simp only [packetEvents, List.length_nil] at this
    omega

theorem hears_cost (hm : Terse m) {d : Bytes} {k k' : Count} {o : List (Eff MqttEff)} {d' : Bytes} {r : Py Unit}
    (h : Hears m d k o d' k' r) : cost o + d'.length ≤ d.length ∧ ClockLines o := by
  induction h with
  | waits d k h => exact ⟨by simp [cost, messagesOf, writesOf], clockLines_nil⟩
  | fault d k e h => exact ⟨by simp [cost, messagesOf, writesOf], clockLines_nil⟩
  | skips d n k k' o d' r h hn hr ih =>
    refine ⟨?_, ih.2⟩
    have := ih.1
    rw [List.length_drop] at this
    omega
  | message d p n k k1 k2 o1 o2 d' r h ho hr ih =>
    have h1 := packet_cost hm h ho
    rw [cost_append]
    exact ⟨by omega, clockLines_append h1.2 ih.2⟩

theorem converses_cost (hm : Terse m) {b : Bytes} {k k' : Count} {ds : List Bytes} {o : List (Eff MqttEff)} {b' : Bytes}
    {r : Py Unit} (h : Converses m b k ds o b' k' r) :
    cost o + b'.length ≤ b.length + ds.flatten.length ∧ ClockLines o := by
  induction h with
  | silence b k => exact ⟨by simp [cost, messagesOf, writesOf], clockLines_nil⟩
  | huge b k d ds h => exact ⟨by simp [cost, messagesOf, writesOf], clockLines_nil⟩
  | overflow b k d ds h1 h2 => exact ⟨by simp [cost, messagesOf, writesOf], clockLines_nil⟩
  | ends b k k' d ds o b' e hl h =>
    have := hears_cost hm h
    simp only [List.length_append, List.flatten_cons] at this ⊢
    exact ⟨by omega, this.2⟩
  | goesOn b k k1 k2 d ds o1 o2 b1 b2 r hl h hr ih =>
    have := hears_cost hm h
    rw [cost_append]
    simp only [List.length_append, List.flatten_cons] at this ⊢
    exact ⟨by omega, clockLines_append this.2 ih.2⟩

theorem session_cost (now : Nat → PyDateTime) (hnow : ∀ n, DateTimeOk (now n)) : ∀ (ds : List Bytes) (b : Bytes) (s : Client),
    Up s →
    let r := Client.serialSession (Mqtt.cbusHook now) ds ⟨b, s⟩
    cost r.2 + r.1.buf.length ≤ b.length + ds.flatten.length ∧ ClockLines r.2 := by
  intro ds
  induction ds with
  | nil => exact fun b s _ => ⟨by simp [Client.serialSession, cost, messagesOf, writesOf], clockLines_nil⟩
  | cons d ds ih =>
    intro b s hu
    generalize hz : Client.dataReceived (Mqtt.cbusHook now) d ⟨b, s⟩ = z
    obtain ⟨⟨b1, s1⟩, o1, r1⟩ := z
    have hf : feed maxBufferSize (Client.handle (Mqtt.cbusHook now)) [d] ⟨b, s⟩ = (⟨b1, s1⟩, o1, r1) := by
      have hdef : CBus.dataReceived maxBufferSize (Client.handle (Mqtt.cbusHook now)) d ⟨b, s⟩ =
        Client.dataReceived (Mqtt.cbusHook now) d ⟨b, s⟩ := rfl
      simp only [feed, Proc.andThen, hdef, hz]
      cases r1 <;> simp
    obtain ⟨k, h1, h2⟩ := (C102_daemon now hnow s hu b [d] _ _ _).1 hf
    have hm : Terse ⟨true, fun e => if s.mqttApi then eventMessages e else [], now⟩ := by
      refine ⟨fun e => ?_, fun c ok => ?_, ?_⟩ <;> simp only <;> split
      · exact eventMessages_length e
      · simp
      all_goals rfl
    have h3 := converses_cost hm h1
    simp only at h2 h3
    have h4 := ih b1 s1 (by rw [h2]; exact ⟨hu.1, Nat.mod_lt _ (by decide)⟩)
    simp only [Client.serialSession, hz, cost_append, List.flatten_cons, List.length_append, List.flatten_nil, List.append_nil] at h3 h4 ⊢
    exact ⟨by omega, clockLines_append h3.2 h4.2⟩

/-- C151. For what `n` characters do there are no more than `n / 2` messages to the broker and `n / 4` lines to
the network, both together, and these have 37 characters each. -/
theorem C151_load (now : Nat → PyDateTime) (hnow : ∀ n, DateTimeOk (now n)) (s : Client) (hu : Up s) (ds : List Bytes) :
    let o := (Client.serialSession (Mqtt.cbusHook now) ds ⟨[], s⟩).2
    2 * (messagesOf o).length + 4 * (writesOf o).length ≤ (ds.map List.length).sum ∧
    4 * ((writesOf o).map List.length).sum ≤ 37 * (ds.map List.length).sum := by
  have h := session_cost now hnow ds [] s hu
  simp only [List.length_nil, Nat.zero_add, List.length_flatten] at h
  obtain ⟨h1, h2⟩ := h
  refine ⟨by unfold cost at h1; omega, ?_⟩
  have h3 : ∀ l : List Bytes, (∀ w ∈ l, w.length = 37) → (l.map List.length).sum = 37 * l.length := by
    intro l
    induction l with
    | nil => intro _; rfl
    | cons w l ih =>
      intro hl
      simp only [List.map_cons, List.sum_cons, List.length_cons, hl w (by simp), ih fun x hx => hl x (by simp [hx])]
      omega
  rw [h3 _ h2]
  unfold cost at h1
  omega

/-- Three requests for the time in one line make three lines; nine lamps that are switched make eighteen
messages. -/
example : (writesOf (Client.serialSession (Mqtt.cbusHook fun _ => ⟨⟨2020, 1, 1⟩, ⟨0, 0, 0, 0⟩⟩)
      [ascii "0505DF001103", ascii "11031103DB\r\n"] ⟨[], { connected := true, mqttApi := true }⟩).2).length = 3 ∧
    (messagesOf (Client.serialSession (Mqtt.cbusHook fun _ => ⟨⟨2020, 1, 1⟩, ⟨0, 0, 0, 0⟩⟩)
      [ascii "05053800790179027903790479057906790779087909" ++ ascii "50\r\n"]
      ⟨[], { connected := true, mqttApi := true }⟩).2).length = 18 := by
  decide +kernel

end CBus.Props
