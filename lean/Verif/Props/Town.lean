import Verif.Props.Street
import Verif.Spec.Town

/-! # C142: daemons do not set each other off -/

namespace CBus.Props
open CBus CBus.Spec

/-- One message that makes any calls but requests for the time. -/
theorem hear_events (u : UniTable) (loads : Bytes → Option JVal) (now : Nat → PyDateTime) (hnow : ∀ n, DateTimeOk (now n))
    (c : Conn Client) (hu : Up c.st) (hb : c.buf = []) (line : Bytes) (hl : line.length ≤ 256) (p : Packet)
    (hp : FromPci true true line (some p, line.length)) (hn : ∀ e ∈ packetEvents p, ∀ src, e ≠ .clockRequest src) :
    daemonDo u loads now (.receive line) c =
      (c, (packetEvents p).flatMap fun e => .event e :: (if c.st.mqttApi then eventMessages e else []).map .ext, .ok ()) := by
  obtain ⟨b, s⟩ := c
  simp only at hb hu
  subst hb
  let m : Manner MqttEff := ⟨true, fun e => if s.mqttApi then eventMessages e else [], now⟩
  let k : Count := ⟨s.nextConf, s.clockReads⟩
  have h1 : ∀ es : List Event, (∀ e ∈ es, ∀ src, e ≠ .clockRequest src) → Handles m es k
      (es.flatMap fun e => .event e :: (if s.mqttApi then eventMessages e else []).map .ext) k := by
    intro es
    induction es with
    | nil => intro _; exact .nil k
    | cons e es ih =>
      intro h
      exact .other e es k k _ (h e List.mem_cons_self) (ih fun e' he' => h e' (List.mem_cons_of_mem _ he'))
  have hh : Hears m ([] ++ line) k (((packetEvents p).flatMap fun e => .event e ::
      (if s.mqttApi then eventMessages e else []).map .ext) ++ []) [] k (.ok ()) :=
    .message _ p line.length k k k _ [] [] _ hp (h1 _ hn) (by
      rw [List.nil_append, List.drop_length]
      exact .waits [] k empty_waits)
  have hcv := Converses.goesOn [] k k k line [] _ [] [] [] (.ok ()) (by simpa using hl) hh (.silence [] _)
  have hf := (C102_daemon now hnow s hu [] [line] ⟨[], s⟩ _ (.ok ())).2 ⟨k, hcv, by
    show _ = ({ s with nextConf := s.nextConf % 20 } : Client)
    rw [Nat.mod_eq_of_lt hu.2]⟩
  have e : feed maxBufferSize (Client.handle (Mqtt.cbusHook now)) [line] ⟨[], s⟩ =
      Client.dataReceived (Mqtt.cbusHook now) line ⟨[], s⟩ := by
    simp only [feed, Client.dataReceived, Proc.andThen]
    generalize CBus.dataReceived maxBufferSize (Client.handle (Mqtt.cbusHook now)) line ⟨[], s⟩ = z
    obtain ⟨z1, z2, z3⟩ := z
    cases z3 <;> simp
  rw [e] at hf
  simpa [daemonDo] using hf

/-- How what is overheard is read. -/
theorem overheard_read {src a : UInt8} {h : AppHandler} {data digits : Bytes} {sals : List SAL} (hs : src ≠ 0)
    (hh : expectedHandler a.toNat = some h) (hr : Reads h data (.ok sals)) (ha : ∀ s ∈ sals, s.application = a.toNat)
    (hl : data.length ≤ 100) (hd : Spelled true (0x05 :: src :: a :: 0x00 :: data) digits) :
    (digits ++ [0x0d, 0x0a]).length ≤ 256 ∧
    ∃ p, FromPci true true (digits ++ [0x0d, 0x0a]) (some p, (digits ++ [0x0d, 0x0a]).length) ∧
      packetEvents p = sals.filterMap (salEvent (some src.toNat)) := by
  obtain ⟨y, hx, hz⟩ := hd
  have hd := hexPairs_digits hx
  have hlen := hexPairs_length hx
  refine ⟨by simp only [List.length_append, List.length_cons, List.length_nil] at hlen ⊢; omega, ?_⟩
  have hpay : PayloadAt true false 0x05 (a :: 0x00 :: data)
      (.ok (.pm { checksum := true, prio := prioOf 0x05, app := some a.toNat, sals := sals, conf := none, src := none }, 0)) :=
    .pm _ (.ok _) (by decide) rfl (by decide) (.packet a _ h hh sals hr ha)
  have hmsg := MessageAt.checked (checksum := true) (strict := true) _ y _ rfl (fun _ => hz)
    (EventAt.packet (checksum := true) 0x05 src _ (by decide) _ 0 hpay)
  rw [if_neg hs] at hmsg
  have hline := FromPci.line (checksum := true) (strict := true) digits [] _ (by
    intro ⟨a, b, hab⟩
    have := hd 0x0d (by rw [← hab]; simp)
    exact absurd this (by unfold HexDigit; decide)) (by
    intro c hc
    have := hd c (List.mem_of_head? hc)
    have key : ∀ c : UInt8, HexDigit c → c ≠ 0x2b ∧ c ≠ 0x21 ∧ ¬ Code c := by
      intro c h
      unfold HexDigit at h
      unfold Code
      refine ⟨?_, ?_, ?_⟩
      · rintro rfl; revert h; decide
      · rintro rfl; revert h; decide
      · omega
    exact key c this) (.digits _ _ _ hx hmsg)
  exact ⟨_, by simpa using hline, rfl⟩

theorem byteOf_toNat (x : Int) (h0 : 0 ≤ x) (h : x < 256) : ((byteOf x).toNat : Int) = x := by
  unfold byteOf
  rw [UInt8.toNat_ofNat']
  omega

/-- The time is read as the date and the time. -/
theorem clock_read {t : PyDateTime} (ht : DateTimeOk t) (w : Nat) :
    Reads .clock (clockBytes t w)
      (.ok [.clockUpdate (.date t.date), .clockUpdate (.time { t.time with microsecond := 0 })]) := by
  obtain ⟨⟨y, m, d⟩, ⟨h, mi, s, us⟩⟩ := t
  obtain ⟨hd, hh, hm, hs, -⟩ := ht
  have hd' := hd
  obtain ⟨y1, y2, m1, m2, d1, d2⟩ := hd'
  simp only at y1 y2 m1 m2 d1 d2 hh hm hs
  have := daysInMonth_le y m
  have b : ∀ x : Nat, x < 256 → (byteOf (x : Int)).toNat = x := by
    intro x hx
    have := byteOf_toNat x (by omega) (by omega)
    omega
  have by1 : (byteOf ((y : Int) / 256)).toNat * 256 + (byteOf (y : Int)).toNat = y := by
    unfold byteOf
    simp only [UInt8.toNat_ofNat']
    omega
  have hdate := Command.date (byteOf ((y : Int) / 256)) (byteOf y) (byteOf m) (byteOf d) (byteOf w)
    [0x0d, 0x01, byteOf h, byteOf mi, byteOf s, 0xff] (by rw [by1, b m (by omega), b d (by omega)]; exact hd)
  have htime := Command.time (byteOf h) (byteOf mi) (byteOf s) 0xff [] (by
    rw [b h (by omega), b mi (by omega), b s (by omega)]; exact ⟨hh, hm, hs⟩)
  rw [by1, b m (by omega), b d (by omega)] at hdate
  rw [b h (by omega), b mi (by omega), b s (by omega)] at htime
  have hnil : Reads .clock [] (.ok []) := .stop [] (by rintro s rest h; cases h) (by rintro e h; cases h)
  exact .command _ _ _ _ hdate (.command _ _ _ _ htime hnil)

/-- C142: whatever a daemon has written, and for whatever reason, another daemon that hears of it writes
nothing, and is as it was. -/
theorem C142_silent (u : UniTable) (now now' : Nat → PyDateTime) (hnow : ∀ n, DateTimeOk (now n))
    (hnow' : ∀ n, DateTimeOk (now' n)) (x : DaemonStep) (line : Bytes) (hw : MayWrite u now x line) (src : UInt8) (heard : Bytes)
    (ho : Overheard src line heard) (u' : UniTable) (loads : Bytes → Option JVal) (b : Conn Client) (hu : Up b.st)
    (hb : b.buf = []) :
    ∃ o, daemonDo u' loads now' (.receive heard) b = (b, o, .ok ()) ∧ writesOf o = [] := by
  obtain ⟨app, data, digits, digits', code, hc, hs, h1, h2, h3, rfl⟩ := ho
  have fin : ∀ (h : AppHandler) (sals : List SAL), expectedHandler app.toNat = some h → Reads h data (.ok sals) →
      (∀ s ∈ sals, s.application = app.toNat) → data.length ≤ 100 → (∀ s ∈ sals, s ≠ .clockRequest) →
      ∃ o, daemonDo u' loads now' (.receive (digits' ++ [0x0d, 0x0a])) b = (b, o, .ok ()) ∧ writesOf o = [] := by
    intro h sals k1 k2 k3 k4 k5
    obtain ⟨hl, p, hp, he⟩ := overheard_read hs k1 k2 k3 k4 h3
    have hn : ∀ e ∈ packetEvents p, ∀ src, e ≠ .clockRequest src := by
      intro e he' src' hh
      rw [he] at he'
      obtain ⟨s, hs1, hs2⟩ := List.mem_filterMap.1 he'
      have := k5 s hs1
      cases s <;> simp_all [salEvent]
    refine ⟨_, hear_events u' loads now' hnow' b hu hb _ hl p hp hn, ?_⟩
    generalize packetEvents p = es
    induction es with
    | nil => rfl
    | cons e es ih =>
      rw [List.flatMap_cons, writesOf_append, ih, List.append_nil]
      simp [writesOf, List.filterMap_map, Function.comp_def]
  have clock : ∀ t code', DateTimeOk t → ClockLine t code' line →
      ∃ o, daemonDo u' loads now' (.receive (digits' ++ [0x0d, 0x0a])) b = (b, o, .ok ()) ∧ writesOf o = [] := by
    rintro t code' ht ⟨w, digits'', -, k1, k2⟩
    rw [framed_digits (h2.symm.trans k2)] at h1
    have := spelled_body h1 k1
    simp only [List.cons_append, List.nil_append, List.cons.injEq, true_and] at this
    obtain ⟨rfl, rfl⟩ := this
    refine fin .clock _ (by decide) (clock_read ht w) ?_ (by simp [clockBytes]) ?_
    · intro s hs; simp only [List.mem_cons, List.not_mem_nil, or_false] at hs; rcases hs with rfl | rfl <;> rfl
    · intro s hs; simp only [List.mem_cons, List.not_mem_nil, or_false] at hs; rcases hs with rfl | rfl <;> simp
  cases hw with
  | reset => exact absurd (congrArg List.head? h2) (by simp; decide)
  | setting s c hm _ =>
    simp only [settings, List.mem_cons, List.not_mem_nil, or_false] at hm
    rcases hm with rfl | rfl | rfl <;> exact absurd (congrArg List.head? h2) (by simp [ascii])
  | tick n c _ _ h => exact clock _ _ (hnow n) h
  | asked d n c _ _ h => exact clock _ _ (hnow n) h
  | light topic payload ga c body digits'' _ _ hb' hs' =>
    rw [framed_digits h2.symm] at h1
    have e := spelled_body h1 hs'
    have key : ∃ order : Order, order.Ok ∧ app = 0x38 ∧ data = order.data (byteOf ga) := by
      cases hb' with
      | off => simp only [List.cons.injEq, true_and] at e; exact ⟨.off, trivial, e.1, e.2⟩
      | on => simp only [List.cons.injEq, true_and] at e; exact ⟨.on, trivial, e.1, e.2⟩
      | ramp k l hk => simp only [List.cons.injEq, true_and] at e; exact ⟨.ramp k l, hk, e.1, e.2⟩
    obtain ⟨order, hk, rfl, rfl⟩ := key
    obtain ⟨s, r1, r2, r3⟩ := order_read (ga := byteOf ga) hk
    refine fin .lighting [s] (by decide) r1 ?_ (by cases order <;> simp [Order.data]) ?_
    · intro t ht; rw [List.mem_singleton.1 ht, r2]; rfl
    · intro t ht
      rw [List.mem_singleton.1 ht]
      rintro rfl
      exact absurd r2 (by decide)

/-! ## The town -/

/-- Daemons on the same network and the same broker; the lines that they have written so far; and the topics
on which they have published. -/
structure Town where
  daemons : Nat → Conn Client
  said : List Bytes := []
  posted : List Str := []

/-- The topics of the messages that are published. -/
def topicsOf (o : List (Eff MqttEff)) : List Str :=
  o.filterMap fun e => match e with
    | .ext (.publish t _ _ _) => some t
    | _ => none

/-- What comes of a step of one of the daemons. -/
def Town.after (w : Town) (i : Nat) (r : Conn Client × List (Eff MqttEff) × Py Unit) : Town where
  daemons j := if j = i then r.1 else w.daemons j
  said := w.said ++ writesOf r.2.1
  posted := w.posted ++ topicsOf r.2.1

/-- Histories of the town, with the lines that are written because of something from outside of it: something
happens to a daemon; one hears of a line that one of them wrote, when it is not in the middle of another one;
or the broker delivers to one of them what one of them has published. Each daemon has its own clock and
its own tables. -/
inductive TownGoes (u : Nat → UniTable) (loads : Nat → Bytes → Option JVal) (now : Nat → Nat → PyDateTime) :
    Town → List Bytes → Town → Prop
  | refl (w : Town) : TownGoes u loads now w [] w
  | outside (w w' : Town) (i : Nat) (x : DaemonStep) (ls : List Bytes)
      (hx : ∀ b, x = .receive b → (w.daemons i).st.connected = true)
      (h : TownGoes u loads now (w.after i (daemonDo (u i) (loads i) (now i) x (w.daemons i))) ls w') :
      TownGoes u loads now w (writesOf (daemonDo (u i) (loads i) (now i) x (w.daemons i)).2.1 ++ ls) w'
  | hears (w w' : Town) (i : Nat) (src : UInt8) (line heard : Bytes) (ls : List Bytes) (hl : line ∈ w.said)
      (ho : Overheard src line heard) (hc : (w.daemons i).st.connected = true) (hb : (w.daemons i).buf = [])
      (h : TownGoes u loads now (w.after i (daemonDo (u i) (loads i) (now i) (.receive heard) (w.daemons i))) ls w') :
      TownGoes u loads now w ls w'
  | delivered (w w' : Town) (i : Nat) (topic : Str) (payload : Bytes) (ls : List Bytes) (ht : topic ∈ w.posted)
      (h : TownGoes u loads now (w.after i (daemonDo (u i) (loads i) (now i) (.message topic payload) (w.daemons i))) ls w') :
      TownGoes u loads now w ls w'

/-- What is true at all times. -/
structure Town.Sound (w : Town) : Prop where
  codes : ∀ i, (w.daemons i).st.nextConf < 20
  lines : ∀ line ∈ w.said, ∃ u now x, (∀ n, DateTimeOk (now n)) ∧ MayWrite u now x line
  topics : ∀ topic ∈ w.posted, ∀ (u : UniTable) (loads : Bytes → Option JVal) (payload : Bytes) (s : Client),
    Mqtt.onMessage u loads topic payload s = (s, [], .ok ())

theorem daemonAt_stateOf (c : Conn Client) (h : c.st.nextConf < 20) : daemonAt c.st (stateOf c) = c := by
  obtain ⟨b, s⟩ := c
  show (⟨b, { s with nextConf := s.nextConf % 20 }⟩ : Conn Client) = ⟨b, s⟩
  rw [Nat.mod_eq_of_lt h]

theorem daemonDo_codes (u : UniTable) (loads : Bytes → Option JVal) (now : Nat → PyDateTime) (hnow : ∀ n, DateTimeOk (now n))
    (c : Conn Client) (hk : c.st.nextConf < 20) (x : DaemonStep) (hx : ∀ b, x = .receive b → c.st.connected = true) :
    (daemonDo u loads now x c).1.st.nextConf < 20 ∧
    ∀ line ∈ writesOf (daemonDo u loads now x c).2.1, MayWrite u now x line := by
  obtain ⟨o, d', r, h1, h2⟩ := does_total u loads now hnow c.st x (stateOf c) hx
  rw [daemonAt_stateOf c hk] at h2
  rw [h2]
  refine ⟨Nat.mod_lt _ (by decide), ?_⟩
  intro line hl
  refine does_mayWrite h1 line ?_
  obtain ⟨e, he, hl⟩ := List.mem_filterMap.1 hl
  cases e <;> simp at hl
  exact hl ▸ he

theorem mem_topicsOf {o : List (Eff MqttEff)} {t : Str} (h : t ∈ topicsOf o) : ∃ p q r, Eff.ext (.publish t p q r) ∈ o := by
  obtain ⟨e, he, hl⟩ := List.mem_filterMap.1 h
  split at hl
  · simp only [Option.some.injEq] at hl
    exact ⟨_, _, _, hl ▸ he⟩
  · cases hl

theorem daemonDo_topics (u : UniTable) (loads : Bytes → Option JVal) (now : Nat → PyDateTime) (hnow : ∀ n, DateTimeOk (now n))
    (c : Conn Client) (hk : c.st.nextConf < 20) (x : DaemonStep) (hx : ∀ b, x = .receive b → c.st.connected = true) (t : Str)
    (ht : t ∈ topicsOf (daemonDo u loads now x c).2.1) (u' : UniTable) (loads' : Bytes → Option JVal) (payload : Bytes)
    (s : Client) : Mqtt.onMessage u' loads' t payload s = (s, [], .ok ()) := by
  obtain ⟨p, q, r, h⟩ := mem_topicsOf ht
  obtain ⟨o, d', r', h1, h2⟩ := does_total u loads now hnow c.st x (stateOf c) hx
  rw [daemonAt_stateOf c hk] at h2
  cases x with
  | made =>
    rw [h2] at h
    cases h1
    simp only [setUp, List.mem_append, List.mem_cons, List.not_mem_nil, or_false, reduceCtorEq, false_or] at h
    split at h <;> simp at h
  | lost => rw [h2] at h; cases h1 <;> cases h
  | tick => rw [h2] at h; cases h1 <;> simp at h
  | receive b =>
    simp only [daemonDo] at h
    exact C60_ignored u' loads' t payload s (.inl fun ga hs => dataReceived_noSet now b c t p q r h hs.2.1)
  | broker labels =>
    simp only [daemonDo, daemonDo.onState] at h
    exact C60_ignored u' loads' t payload s (.inl fun ga hs => onConnect_noSet labels c.st t p q r h hs.2.1)
  | message topic pl =>
    simp only [daemonDo, daemonDo.onState] at h
    exact C60_ignored u' loads' t payload s (.inl fun ga hs => onMessage_silent u loads topic pl c.st t p q r h hs.2.1)

theorem town_after {w : Town} (hw : w.Sound) (u : UniTable) (loads : Bytes → Option JVal) (now : Nat → PyDateTime)
    (hnow : ∀ n, DateTimeOk (now n)) (i : Nat) (x : DaemonStep)
    (hx : ∀ b, x = .receive b → (w.daemons i).st.connected = true) :
    (w.after i (daemonDo u loads now x (w.daemons i))).Sound := by
  obtain ⟨h1, h2⟩ := daemonDo_codes u loads now hnow _ (hw.codes i) x hx
  refine ⟨fun j => ?_, fun line hl => ?_, fun topic ht => ?_⟩
  · simp only [Town.after]
    split
    · exact h1
    · exact hw.codes j
  · rcases List.mem_append.1 hl with hl | hl
    · exact hw.lines line hl
    · exact ⟨u, now, x, hnow, h2 line hl⟩
  · rcases List.mem_append.1 ht with ht | ht
    · exact hw.topics topic ht
    · exact daemonDo_topics u loads now hnow _ (hw.codes i) x hx topic ht

/-- C142: in every history of the town, all the lines that the daemons write are written because of something
from outside of it. -/
theorem C142_town (u : Nat → UniTable) (loads : Nat → Bytes → Option JVal) (now : Nat → Nat → PyDateTime)
    (hnow : ∀ i n, DateTimeOk (now i n)) (w w' : Town) (hs : w.said = []) (hp : w.posted = [])
    (hk : ∀ i, (w.daemons i).st.nextConf < 20) (ls : List Bytes) (h : TownGoes u loads now w ls w') : w'.said = ls := by
  have key : ∀ w ls w', TownGoes u loads now w ls w' → w.Sound → w'.said = w.said ++ ls := by
    intro w ls w' h
    induction h with
    | refl w => intro _; simp
    | outside w w' i x ls hx _ ih =>
      intro hw
      rw [ih (town_after hw _ _ _ (hnow i) i x hx)]
      simp [Town.after]
    | hears w w' i src line heard ls hl ho hc hb _ ih =>
      intro hw
      rw [ih (town_after hw _ _ _ (hnow i) i _ fun _ _ => hc)]
      obtain ⟨u', now', x, hn', hm⟩ := hw.lines line hl
      obtain ⟨o, h1, h2⟩ := C142_silent u' now' (now i) hn' (hnow i) x line hm src heard ho (u i) (loads i) _ ⟨hc, hw.codes i⟩ hb
      simp [Town.after, h1, h2]
    | delivered w w' i topic payload ls ht _ ih =>
      intro hw
      rw [ih (town_after hw _ _ _ (hnow i) i _ (by rintro b h; cases h))]
      have := hw.topics topic ht (u i) (loads i) payload (w.daemons i).st
      simp [Town.after, daemonDo, daemonDo.onState, this, writesOf]
  have := key w ls w' h ⟨hk, by rw [hs]; simp, by rw [hp]; simp⟩
  rw [this, hs, List.nil_append]

/-- What one daemon writes, and what another one hears of it. -/
example : Overheard 9 (ascii "\\0538007907" ++ ascii "43h\r") (ascii "050938007907" ++ ascii "3A\r\n") :=
  ⟨0x38, [0x79, 0x07], ascii "053800790743", ascii "0509380079073A", 0x68, by unfold IsCode; decide, by decide,
    (spelled_iff _ _ _).2 (by decide), by decide, (spelled_iff _ _ _).2 (by decide), by decide⟩

/-- A request for the time of another unit is answered: hearing alone does not keep a daemon silent. -/
example : (writesOf (daemonDo .ascii (fun _ => none) (fun _ => someTime) (.receive (ascii "0505DF00110303\r\n")) readyDaemon).2.1).length
    = 1 := by decide +kernel

/-- A history in which a message makes one daemon write and another one hears of it. -/
example : ∃ w' : Town, ∃ ls, TownGoes (fun _ => .ascii) (fun _ => CBus.Json.loads exampleEnv) (fun _ _ => someTime)
    { daemons := fun _ => readyDaemon } ls w' ∧ w'.said = [ascii "\\0538007907" ++ ascii "43h\r"] ∧ w'.posted.length = 4 := by
  refine ⟨_, _, .outside _ _ 0 (.message "homeassistant/light/cbus_7/set".toList (Json.utf8 "{\"state\": \"on\"}".toList)) _
    (by rintro b h; cases h)
    (.hears _ _ 1 9 (ascii "\\0538007907" ++ ascii "43h\r") (ascii "050938007907" ++ ascii "3A\r\n") _ ?_
      ⟨0x38, [0x79, 0x07], ascii "053800790743", ascii "0509380079073A", 0x68, by unfold IsCode; decide, by decide,
        (spelled_iff _ _ _).2 (by decide), by decide, (spelled_iff _ _ _).2 (by decide), by decide⟩ ?_ ?_ (.refl _)), ?_, ?_⟩
  · decide +kernel
  · decide +kernel
  · decide +kernel
  · decide +kernel
  · decide +kernel

end CBus.Props
