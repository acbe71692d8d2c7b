import Verif.Props.Refused
import Verif.Props.Lamp
import Verif.Spec.Street

/-! # C126: when all is quiet the broker shows what the lights are

The daemon, its PCI and the network between which commands are on their way in both directions. -/

namespace CBus.Props
open CBus CBus.Spec

/-- The daemon; its commands that are not on the network yet; the commands of other units that it has not
been told of yet; the level that the lights of each group come to, as far as there has been a command;
and the brightness that the broker shows. -/
structure Street where
  daemon : Conn Client
  outbox : List (UInt8 × Order) := []
  inbox : List (UInt8 × Order) := []
  lights : UInt8 → Option Int := fun _ => none
  shows : UInt8 → Option JVal := fun _ => none

/-- What happens next: a message from the broker; the command of another unit; the daemon's PCI has put
its next command on the network; it tells the daemon of the next command of another unit; it confirms a command
or refuses it; it is time to send the time. -/
inductive Happening
  | message (topic : Str) (payload : Bytes)
  | switched (ga : UInt8) (order : Order)
  | passed
  | told (src : UInt8) (line : Bytes)
  | answered (code x : UInt8)
  | tick

/-- A command on the network. -/
def commanded (x : UInt8 × Order) (lights : UInt8 → Option Int) : UInt8 → Option Int :=
  fun g => if g = x.1 then some x.2.goal else lights g

/-- The broker keeps the last message for each light. -/
def kept (o : List (Eff MqttEff)) (shows : UInt8 → Option JVal) : UInt8 → Option JVal :=
  fun g => (shown g.toNat (messagesOf o)).or (shows g)

/-- One thing after the other. What the daemon does is what the model of the code does. The lines with
the time that it sends have nothing to do with the lights. -/
inductive Goes (u : UniTable) (loads : Bytes → Option JVal) (now : Nat → PyDateTime) : Street → Happening → Street → Prop
  | message (w : Street) (topic : Str) (payload : Bytes) (c : Conn Client) (o : List (Eff MqttEff)) (r : Py Unit)
      (xs : List (UInt8 × Order)) (h : daemonDo u loads now (.message topic payload) w.daemon = (c, o, r))
      (hx : Carry (writesOf o) xs) :
      Goes u loads now w (.message topic payload)
        { w with daemon := c, outbox := w.outbox ++ xs, shows := kept o w.shows }
  | switched (w : Street) (ga : UInt8) (order : Order) (hk : order.Ok) :
      Goes u loads now w (.switched ga order)
        { w with inbox := w.inbox ++ [(ga, order)], lights := commanded (ga, order) w.lights }
  | passed (w : Street) (x : UInt8 × Order) (xs : List (UInt8 × Order)) (h : w.outbox = x :: xs) :
      Goes u loads now w .passed { w with outbox := xs, lights := commanded x w.lights }
  | told (w : Street) (src : UInt8) (line : Bytes) (x : UInt8 × Order) (xs : List (UInt8 × Order)) (h : w.inbox = x :: xs)
      (hl : HeardLine src x line) (c : Conn Client) (o : List (Eff MqttEff)) (r : Py Unit)
      (hd : daemonDo u loads now (.receive line) w.daemon = (c, o, r)) :
      Goes u loads now w (.told src line) { w with daemon := c, inbox := xs, shows := kept o w.shows }
  | answered (w : Street) (code x : UInt8) (hc : Code code) (c : Conn Client) (o : List (Eff MqttEff)) (r : Py Unit)
      (hd : daemonDo u loads now (.receive [code, x]) w.daemon = (c, o, r)) :
      Goes u loads now w (.answered code x) { w with daemon := c, shows := kept o w.shows }
  | tick (w : Street) (c : Conn Client) (o : List (Eff MqttEff)) (r : Py Unit)
      (hd : daemonDo u loads now .tick w.daemon = (c, o, r)) :
      Goes u loads now w .tick { w with daemon := c, shows := kept o w.shows }

/-- A history, of all of which something is true. -/
inductive GoesOn (u : UniTable) (loads : Bytes → Option JVal) (now : Nat → PyDateTime) (P : Street → Happening → Prop) :
    Street → Street → Prop
  | refl (w : Street) : GoesOn u loads now P w w
  | step (w w1 w2 : Street) (x : Happening) (h : Goes u loads now w x w1) (hp : P w x) (hr : GoesOn u loads now P w1 w2) :
      GoesOn u loads now P w w2

/-- A daemon that is connected on both sides. -/
def Ready (c : Conn Client) : Prop := Up c.st ∧ c.st.mqttApi = true ∧ c.buf = []

/-- Nothing is on its way. -/
def AllQuiet (w : Street) : Prop := w.outbox = [] ∧ w.inbox = []

/-- The broker shows what the lights come to, as far as that is known. -/
def InStep (w : Street) : Prop := ∀ ga i, w.lights ga = some i → w.shows ga = some (.num (.int i))

/-- The claim. -/
def C126_claim : Prop :=
  ∀ (u : UniTable) (loads : Bytes → Option JVal) (now : Nat → PyDateTime) (w w' : Street), (∀ n, DateTimeOk (now n)) →
    Ready w.daemon → AllQuiet w → InStep w → GoesOn u loads now (fun _ _ => True) w w' → AllQuiet w' → InStep w'

/-- What is said about a light does not cross what is being said the other way. -/
def Uncrossed (u : UniTable) (w : Street) : Happening → Prop
  | .message topic _ => ∀ ga, ForLight u topic ga → ∀ x ∈ w.inbox, x.1 ≠ byteOf ga
  | .switched ga _ => ∀ x ∈ w.outbox, x.1 ≠ ga
  | _ => True

/-! ## Lines and commands -/

theorem order_inj {a b : UInt8} {x y : Order} (hx : x.Ok) (hy : y.Ok) (h : x.data a = y.data b) : (a, x) = (b, y) := by
  have key : ∀ k < 16, byteOf (rampCode k) ≠ 0x01 ∧ byteOf (rampCode k) ≠ 0x79 := by decide
  have inj : ∀ k < 16, ∀ l < 16, byteOf (rampCode k) = byteOf (rampCode l) → k = l := by decide
  cases x <;> cases y <;> simp only [Order.data, List.cons.injEq, and_true, reduceCtorEq, and_false] at h
  · rw [h.2]
  · exact absurd h.1 (by decide)
  · exact absurd h.1 (by decide)
  · rw [h.2]
  · rename_i k l k' l'
    rw [inj k hx k' hy h.1, h.2.1, h.2.2]

theorem orderLine_inj {x y : UInt8 × Order} {line : Bytes} (hx : OrderLine x line) (hy : OrderLine y line) : x = y := by
  obtain ⟨d, c, h1, _, h3, h4⟩ := hx
  obtain ⟨d', c', h1', _, h3', h4'⟩ := hy
  rw [h4] at h4'
  simp only [List.cons_append, List.cons.injEq, true_and] at h4'
  have e : d = d' := (List.append_inj_left' h4' rfl)
  rw [← e] at h3'
  have := spelled_body h3 h3'
  simp only [List.cons.injEq, true_and] at this
  exact order_inj h1 h1' this

theorem carry_single {x : UInt8 × Order} {line : Bytes} {xs : List (UInt8 × Order)} (h : OrderLine x line)
    (hc : Carry [line] xs) : xs = [x] := by
  cases hc with
  | cons _ y _ ys hy hr =>
    cases hr
    rw [orderLine_inj h hy]

/-- What is shown after the two messages about a light. -/
theorem kept_pair (ga : Int) (hg : 0 ≤ ga ∧ ga ≤ 255) (on : Bool) (i d : Int) (src : Option Int) (on' : Bool)
    (o : List (Eff MqttEff)) (ho : messagesOf o = [stateMessage ga on (.int i) d src, sensorMessage ga on'])
    (shows : UInt8 → Option JVal) (g : UInt8) :
    kept o shows g = if g = byteOf ga then some (.num (.int i)) else shows g := by
  have e : (ga = (g.toNat : Int)) ↔ g = byteOf ga := by
    have hb : (byteOf ga).toNat = ga.toNat := by
      unfold byteOf
      rw [UInt8.toNat_ofNat']
      omega
    rw [← UInt8.toNat_inj, hb]
    omega
  unfold kept shown
  rw [ho, shown_pair]
  simp only [e]
  split <;> simp

/-- A message: nothing happens, or one command is on its way and its brightness is shown. -/
theorem street_message (u : UniTable) (loads : Bytes → Option JVal) (now : Nat → PyDateTime) (hnow : ∀ n, DateTimeOk (now n))
    (c : Conn Client) (hr : Ready c) (topic : Str) (payload : Bytes) (c' : Conn Client) (o : List (Eff MqttEff)) (r : Py Unit)
    (h : daemonDo u loads now (.message topic payload) c = (c', o, r)) :
    Ready c' ∧ (writesOf o = [] ∧ messagesOf o = [] ∨
      ∃ ga order line, ForLight u topic ga ∧ writesOf o = [line] ∧ OrderLine (byteOf ga, order) line ∧
        ∀ shows g, kept o shows g = if g = byteOf ga then some (.num (.int order.goal)) else shows g) := by
  obtain ⟨hu, ha, hb⟩ := hr
  have e : daemonAt c.st (stateOf c) = c := by
    obtain ⟨b, s⟩ := c
    show (⟨b, { s with nextConf := s.nextConf % 20 }⟩ : Conn Client) = ⟨b, s⟩
    rw [Nat.mod_eq_of_lt hu.2]
  obtain ⟨o1, d', r1, h1, h2⟩ := does_total u loads now hnow c.st (.message topic payload) (stateOf c) (by rintro b h; cases h)
  rw [e, h] at h2
  simp only [Prod.mk.injEq] at h2
  obtain ⟨rfl, rfl, rfl⟩ := h2
  have hrd : ∀ k : Count, Ready (daemonAt c.st { stateOf c with count := k }) := fun k =>
    ⟨⟨hu.1, Nat.mod_lt _ (by decide)⟩, ha, hb⟩
  generalize hd : stateOf c = d at h1
  cases h1 with
  | elsewhere => exact ⟨hd ▸ hrd _, .inl ⟨rfl, rfl⟩⟩
  | unreadable => exact ⟨hd ▸ hrd _, .inl ⟨rfl, rfl⟩⟩
  | meaningless => exact ⟨hd ▸ hrd _, .inl ⟨rfl, rfl⟩⟩
  | down => exact ⟨hd ▸ hrd _, .inl ⟨rfl, rfl⟩⟩
  | negative => exact ⟨hd ▸ hrd _, .inl ⟨rfl, rfl⟩⟩
  | message _ _ _ ga v m body digits o ht hv hm hc hbr hs hsp ho =>
    refine ⟨hd ▸ hrd _, .inr ?_⟩
    have hg : 0 ≤ ga ∧ ga ≤ 255 := by
      obtain ⟨_, _, _, _, _, _, _, h⟩ := ht
      exact h
    have hmsg : messagesOf (Eff.write (0x5c :: digits ++ [codeAt d.count.codes, 0x0d]) :: o.map Eff.ext) = o := by
      have : messagesOf (o.map Eff.ext) = o := messagesOf_ext o
      simpa [messagesOf] using this
    have hwr : writesOf (Eff.write (0x5c :: digits ++ [codeAt d.count.codes, 0x0d]) :: o.map Eff.ext) =
        [0x5c :: digits ++ [codeAt d.count.codes, 0x0d]] := by
      simp [writesOf, List.filterMap_map, Function.comp_def]
    cases hs with
    | off hoff =>
      refine ⟨ga, .off, _, ht, hwr, ⟨digits, _, trivial, codeAt_isCode _, hsp, rfl⟩, ?_⟩
      intro shows g
      cases ho with
      | off => exact kept_pair ga hg _ _ _ _ _ _ hmsg shows g
      | on hh => rw [hoff] at hh; cases hh
      | ramp hh => rw [hoff] at hh; cases hh
    | on hon h255 h0 =>
      refine ⟨ga, .on, _, ht, hwr, ⟨digits, _, trivial, codeAt_isCode _, hsp, rfl⟩, ?_⟩
      intro shows g
      cases ho with
      | off hh => rw [hon] at hh; cases hh
      | on => exact kept_pair ga hg _ _ _ _ _ _ hmsg shows g
      | ramp _ hh => omega
    | ramp k q hon hlt hq hk =>
      refine ⟨ga, .ramp k (byteOf (clamp m.brightness)), _, ht, hwr,
        ⟨digits, _, (List.getElem?_eq_some_iff.1 hk).1, codeAt_isCode _, hsp, rfl⟩, ?_⟩
      intro shows g
      cases ho with
      | off hh => rw [hon] at hh; cases hh
      | on _ h1 h2 => omega
      | ramp =>
        have e : (Order.ramp k (byteOf (clamp m.brightness))).goal = clamp m.brightness := by
          show ((byteOf (clamp m.brightness)).toNat : Int) = clamp m.brightness
          unfold byteOf
          rw [UInt8.toNat_ofNat']
          unfold clamp
          omega
        rw [e]
        exact kept_pair ga hg _ _ _ _ _ _ hmsg shows g

theorem order_messages (src : Option Int) (ga : UInt8) (x : Order) : ∃ on d on', eventMessages (x.event src ga) =
    [stateMessage ga.toNat on (.int x.goal) d src, sensorMessage ga.toNat on'] := by
  cases x <;> exact ⟨_, _, _, rfl⟩

theorem order_noClock (src : Option Int) (ga : UInt8) (x : Order) : ∀ src', x.event src ga ≠ .clockRequest src' := by
  cases x <;> simp [Order.event]

/-- How a command is read. -/
theorem order_read {ga : UInt8} {x : Order} (hx : x.Ok) :
    ∃ s, Reads .lighting (x.data ga) (.ok [s]) ∧ s.application = 0x38 ∧ ∀ src, salEvent src s = some (x.event src ga) := by
  have hnil : Reads .lighting [] (.ok []) := .stop [] (by rintro s rest h; cases h) (by rintro e h; cases h)
  cases x with
  | off => exact ⟨_, .command _ _ _ _ (.lightOff ga []) hnil, rfl, fun src => rfl⟩
  | on => exact ⟨_, .command _ _ _ _ (.lightOn ga []) hnil, rfl, fun src => rfl⟩
  | ramp k l =>
    have hk : k < rampDurations.length := hx
    have hc : (byteOf (rampCode k)).toNat = rampCode k := by
      have : ∀ k < 16, (byteOf (rampCode k)).toNat = rampCode k := by decide
      exact this k hx
    have hd : rampDurations[k]? = some (rampDurations.getD k 0) := by
      rw [List.getD_eq_getElem?_getD, List.getElem?_eq_getElem hk]
      rfl
    exact ⟨_, .command _ _ _ _ (.lightRamp k _ _ ga l [] hd hc) hnil, rfl, fun src => rfl⟩

/-- One message that makes one call. -/
theorem hear_one (u : UniTable) (loads : Bytes → Option JVal) (now : Nat → PyDateTime) (hnow : ∀ n, DateTimeOk (now n))
    (c : Conn Client) (hr : Ready c) (line : Bytes) (hl : line.length ≤ 256) (p : Packet) (e : Event)
    (hp : FromPci true true line (some p, line.length)) (he : packetEvents p = [e]) (hn : ∀ src, e ≠ .clockRequest src) :
    daemonDo u loads now (.receive line) c = (c, .event e :: (eventMessages e).map .ext, .ok ()) := by
  obtain ⟨b, s⟩ := c
  obtain ⟨hu, ha, hb⟩ := hr
  simp only at hb hu ha
  subst hb
  let m : Manner MqttEff := ⟨true, fun e => if s.mqttApi then eventMessages e else [], now⟩
  let k : Count := ⟨s.nextConf, s.clockReads⟩
  have h1 : Handles m (packetEvents p) k (.event e :: (eventMessages e).map .ext) k := by
    have h := Handles.other (m := m) e [] k k [] hn (.nil k)
    have e1 : m.says e = eventMessages e := by
      show (if s.mqttApi then eventMessages e else []) = _
      rw [ha, if_pos rfl]
    rw [e1, List.append_nil] at h
    rw [he]
    exact h
  have hh : Hears m ([] ++ line) k ((.event e :: (eventMessages e).map .ext) ++ []) [] k (.ok ()) :=
    .message _ p line.length k k k _ [] [] _ hp h1 (by
      rw [List.nil_append, List.drop_length]
      exact .waits [] k empty_waits)
  have hcv := Converses.goesOn [] k k k line [] _ [] [] [] (.ok ()) (by simpa using hl) hh (.silence [] _)
  have hf := (C102_daemon now hnow s hu [] [line] ⟨[], s⟩ _ (.ok ())).2 ⟨k, hcv, by
    show _ = ({ s with nextConf := s.nextConf % 20 } : Client)
    rw [Nat.mod_eq_of_lt hu.2]⟩
  have e : feed maxBufferSize (Client.handle (Mqtt.cbusHook now)) [line] ⟨[], s⟩ =
      Client.dataReceived (Mqtt.cbusHook now) line ⟨[], s⟩ := by
    simp only [feed, Client.dataReceived, Proc.andThen]
    generalize CBus.dataReceived maxBufferSize (Client.handle (Mqtt.cbusHook now)) line ⟨[], s⟩ = z
    obtain ⟨z1, z2, z3⟩ := z
    cases z3 <;> simp
  rw [e] at hf
  simpa [daemonDo] using hf

theorem hexPairs_length {t m : Bytes} (h : HexPairs t m) : t.length = 2 * m.length := by
  induction h with
  | nil => rfl
  | cons _ _ _ _ _ _ _ _ _ ih => simp only [List.length_cons, ih]; omega

/-- How a report is read. -/
theorem heard_read {src : UInt8} {x : UInt8 × Order} {line : Bytes} (hl : HeardLine src x line) :
    line.length ≤ 256 ∧ ∃ p, FromPci true true line (some p, line.length) ∧
      packetEvents p = [x.2.event (some src.toNat) x.1] := by
  obtain ⟨digits, hx, hs, ⟨y, hh, hz⟩, rfl⟩ := hl
  obtain ⟨s, h1, h2, h3⟩ := order_read (ga := x.1) hx
  have h4 := h3 (some src.toNat)
  have hd := hexPairs_digits hh
  have hlen := hexPairs_length hh
  have hdl : (x.2.data x.1).length ≤ 3 := by cases x.2 <;> simp [Order.data]
  refine ⟨by simp only [List.length_append, List.length_cons, List.length_nil] at hlen ⊢; omega, ?_⟩
  have hpay : PayloadAt true false 0x05 (0x38 :: 0x00 :: x.2.data x.1)
      (.ok (.pm { checksum := true, prio := prioOf 0x05, app := some 0x38, sals := [s], conf := none, src := none }, 0)) :=
    .pm _ (.ok _) (by decide) rfl (by decide) (.packet 0x38 _ .lighting (by decide) [s] h1 (by
      intro t ht
      rw [List.mem_singleton.1 ht, h2]
      rfl))
  have hmsg := MessageAt.checked (checksum := true) (strict := true) _ y _ rfl (fun _ => hz)
    (EventAt.packet (checksum := true) 0x05 src _ (by decide) _ 0 hpay)
  rw [if_neg hs] at hmsg
  have hline := FromPci.line (checksum := true) (strict := true) digits [] _ (by
    intro ⟨a, b, hab⟩
    have := hd 0x0d (by rw [← hab]; simp)
    exact absurd this (by unfold HexDigit; decide)) (by
    intro c hc
    have := hd c (List.mem_of_head? hc)
    have key : ∀ c : UInt8, HexDigit c → c ≠ 0x2b ∧ c ≠ 0x21 ∧ ¬ Code c := by
      intro c h
      unfold HexDigit at h
      unfold Code
      refine ⟨?_, ?_, ?_⟩
      · rintro rfl; revert h; decide
      · rintro rfl; revert h; decide
      · omega
    exact key c this) (.digits _ _ _ hh hmsg)
  refine ⟨_, by simpa using hline, ?_⟩
  simp only [addressed, packetEvents, List.filterMap_cons, List.filterMap_nil, h4]

/-- A report: what it says is shown. -/
theorem street_told (u : UniTable) (loads : Bytes → Option JVal) (now : Nat → PyDateTime) (hnow : ∀ n, DateTimeOk (now n))
    (c : Conn Client) (hr : Ready c) (src : UInt8) (x : UInt8 × Order) (line : Bytes) (hl : HeardLine src x line)
    (c' : Conn Client) (o : List (Eff MqttEff)) (r : Py Unit)
    (h : daemonDo u loads now (.receive line) c = (c', o, r)) :
    Ready c' ∧ ∀ shows g, kept o shows g = if g = x.1 then some (.num (.int x.2.goal)) else shows g := by
  obtain ⟨hlen, p, h1, h2⟩ := heard_read hl
  obtain ⟨on, d, on', h3⟩ := order_messages (some src.toNat) x.1 x.2
  generalize he : x.2.event (some src.toNat) x.1 = e at h2 h3
  have h4 : ∀ src, e ≠ .clockRequest src := he ▸ order_noClock _ _ _
  rw [hear_one u loads now hnow c hr line hlen p e h1 h2 h4] at h
  simp only [Prod.mk.injEq] at h
  obtain ⟨rfl, rfl, rfl⟩ := h
  refine ⟨hr, fun shows g => ?_⟩
  have hb : byteOf (x.1.toNat : Int) = x.1 := by
    apply UInt8.toNat_inj.1
    unfold byteOf
    rw [UInt8.toNat_ofNat']
    have := x.1.toNat_lt
    omega
  have := kept_pair x.1.toNat (by have := x.1.toNat_lt; omega) on x.2.goal d (some src.toNat) on'
    (.event e :: (eventMessages e).map .ext) (by
      have : messagesOf ((eventMessages e).map Eff.ext) = eventMessages e := messagesOf_ext _
      rw [← h3]
      simpa [messagesOf] using this) shows g
  rw [hb] at this
  exact this

/-! ## The history -/

/-- The last command for a group. -/
def lastFor (g : UInt8) (l : List (UInt8 × Order)) : Option Int := (l.filter (·.1 = g)).getLast?.map (·.2.goal)

theorem lastFor_snoc (g : UInt8) (l : List (UInt8 × Order)) (x : UInt8 × Order) :
    lastFor g (l ++ [x]) = if x.1 = g then some x.2.goal else lastFor g l := by
  unfold lastFor
  by_cases h : x.1 = g <;> simp [h]

theorem lastFor_cons (g : UInt8) (l : List (UInt8 × Order)) (x : UInt8 × Order) :
    lastFor g (x :: l) = (lastFor g l).or (if x.1 = g then some x.2.goal else none) := by
  unfold lastFor
  by_cases h : x.1 = g
  · rw [List.filter_cons_of_pos (by simp [h]), List.getLast?_cons, if_pos h]
    cases (l.filter (·.1 = g)).getLast? <;> simp
  · rw [List.filter_cons_of_neg (by simp [h]), if_neg h, Option.or_none]

theorem lastFor_none {g : UInt8} {l : List (UInt8 × Order)} (h : ∀ x ∈ l, x.1 ≠ g) : lastFor g l = none := by
  unfold lastFor
  rw [List.filter_eq_nil_iff.2 (by simpa using h)]
  rfl

/-- As long as nothing crosses: what is on its way to the network is shown already, what is on its way
to the daemon has been done already, and the rest is in step. -/
def Consistent (w : Street) : Prop :=
  Ready w.daemon ∧ ∀ g, (lastFor g w.outbox = none ∨ lastFor g w.inbox = none) ∧
    (∀ i, lastFor g w.outbox = some i → w.shows g = some (.num (.int i))) ∧
    (∀ i, lastFor g w.inbox = some i → w.lights g = some i) ∧
    (lastFor g w.outbox = none → lastFor g w.inbox = none → ∀ i, w.lights g = some i → w.shows g = some (.num (.int i)))

theorem kept_nothing {o : List (Eff MqttEff)} (h : messagesOf o = []) (shows : UInt8 → Option JVal) : kept o shows = shows := by
  funext g
  unfold kept shown
  rw [h]
  rfl

theorem street_tick (u : UniTable) (loads : Bytes → Option JVal) (now : Nat → PyDateTime) (hnow : ∀ n, DateTimeOk (now n))
    (c : Conn Client) (hr : Ready c) (c' : Conn Client) (o : List (Eff MqttEff)) (r : Py Unit)
    (h : daemonDo u loads now .tick c = (c', o, r)) : Ready c' ∧ messagesOf o = [] := by
  obtain ⟨hu, ha, hb⟩ := hr
  have e : daemonAt c.st (stateOf c) = c := by
    obtain ⟨b, s⟩ := c
    show (⟨b, { s with nextConf := s.nextConf % 20 }⟩ : Conn Client) = ⟨b, s⟩
    rw [Nat.mod_eq_of_lt hu.2]
  obtain ⟨o1, d', r1, h1, h2⟩ := does_total u loads now hnow c.st .tick (stateOf c) (by rintro b h; cases h)
  rw [e, h] at h2
  simp only [Prod.mk.injEq] at h2
  obtain ⟨rfl, rfl, rfl⟩ := h2
  have hrd : ∀ k : Count, Ready (daemonAt c.st { stateOf c with count := k }) := fun k =>
    ⟨⟨hu.1, Nat.mod_lt _ (by decide)⟩, ha, hb⟩
  generalize hd : stateOf c = d at h1
  cases h1 with
  | tick => exact ⟨hd ▸ hrd _, rfl⟩
  | tickDown => exact ⟨hd ▸ hrd _, rfl⟩

theorem consistent_step (u : UniTable) (loads : Bytes → Option JVal) (now : Nat → PyDateTime) (hnow : ∀ n, DateTimeOk (now n))
    {w w' : Street} {x : Happening} (h : Goes u loads now w x w') (hx : Uncrossed u w x) (hc : Consistent w) :
    Consistent w' := by
  obtain ⟨hr, hi⟩ := hc
  cases h with
  | message topic payload c o r xs h hxs =>
    obtain ⟨h1, h2⟩ := street_message u loads now hnow _ hr topic payload c o r h
    refine ⟨h1, fun g => ?_⟩
    obtain ⟨i1, i2, i3, i4⟩ := hi g
    rcases h2 with ⟨h2, h3⟩ | ⟨ga, order, line, h2, h3, h4, h5⟩
    · rw [h2] at hxs
      cases hxs
      simp only [List.append_nil, kept_nothing h3]
      exact ⟨i1, i2, i3, i4⟩
    · rw [h3] at hxs
      rw [carry_single h4 hxs]
      simp only [lastFor_snoc, h5]
      by_cases hg : byteOf ga = g
      · have hn : lastFor g w.inbox = none := lastFor_none (by rw [← hg]; exact hx ga h2)
        subst hg
        simp only [if_true, hn, or_true, true_and, Option.some.injEq]
        exact ⟨fun i hi => by rw [hi], by simp, by simp⟩
      · simp only [if_neg hg, if_neg (fun e : g = byteOf ga => hg e.symm)]
        exact ⟨i1, i2, i3, i4⟩
  | switched ga order hk =>
    refine ⟨hr, fun g => ?_⟩
    obtain ⟨i1, i2, i3, i4⟩ := hi g
    simp only [lastFor_snoc, commanded]
    by_cases hg : ga = g
    · have hn : lastFor g w.outbox = none := lastFor_none (by rw [← hg]; exact hx)
      subst hg
      simp [hn]
    · simp only [if_neg hg, if_neg (fun e : g = ga => hg e.symm)]
      exact ⟨i1, i2, i3, i4⟩
  | passed x xs h =>
    refine ⟨hr, fun g => ?_⟩
    obtain ⟨i1, i2, i3, i4⟩ := hi g
    rw [h, lastFor_cons] at i1 i2 i4
    simp only [commanded]
    by_cases hg : x.1 = g
    · subst hg
      simp only [if_true] at *
      cases hl : lastFor x.1 xs <;> cases hin : lastFor x.1 w.inbox <;> simp_all
    · simp only [if_neg hg, if_neg (fun e : g = x.1 => hg e.symm), Option.or_none] at *
      exact ⟨i1, i2, i3, i4⟩
  | told src line x xs h hl c o r hd =>
    obtain ⟨h1, h2⟩ := street_told u loads now hnow _ hr src x line hl c o r hd
    refine ⟨h1, fun g => ?_⟩
    obtain ⟨i1, i2, i3, i4⟩ := hi g
    rw [h, lastFor_cons] at i1 i3 i4
    simp only [h2]
    by_cases hg : x.1 = g
    · subst hg
      simp only [if_true] at *
      cases hl : lastFor x.1 xs <;> cases hin : lastFor x.1 w.outbox <;> simp_all
    · simp only [if_neg hg, if_neg (fun e : g = x.1 => hg e.symm), Option.or_none] at *
      exact ⟨i1, i2, i3, i4⟩
  | answered code x hcode c o r hd =>
    rw [C125_told u loads now hnow _ hr.1 hr.2.2 code x hcode] at hd
    simp only [Prod.mk.injEq] at hd
    obtain ⟨rfl, rfl, rfl⟩ := hd
    refine ⟨hr, fun g => ?_⟩
    simp only [kept_nothing (show messagesOf [Eff.event (Event.confirmation [code] (x == 0x2e))] = [] from rfl)]
    exact hi g
  | tick c o r hd =>
    obtain ⟨h1, h2⟩ := street_tick u loads now hnow _ hr c o r hd
    refine ⟨h1, fun g => ?_⟩
    simp only [kept_nothing h2]
    exact hi g

/-- C126, without what is wrong: if no command crosses another one for the same light, then the broker
shows, whenever all is quiet, what the lights come to. -/
theorem C126_partial (u : UniTable) (loads : Bytes → Option JVal) (now : Nat → PyDateTime) (hnow : ∀ n, DateTimeOk (now n))
    (w w' : Street) (hr : Ready w.daemon) (hq : AllQuiet w) (hs : InStep w) (h : GoesOn u loads now (Uncrossed u) w w')
    (hq' : AllQuiet w') : InStep w' := by
  have h0 : Consistent w := by
    refine ⟨hr, fun g => ?_⟩
    rw [hq.1, hq.2]
    exact ⟨.inl rfl, by simp [lastFor], by simp [lastFor], fun _ _ i hi => hs g i hi⟩
  have h1 : Consistent w' := by
    clear hq hs hr hq'
    induction h with
    | refl => exact h0
    | step w w1 w2 x h hp _ ih => exact ih (consistent_step u loads now hnow h hp h0)
  intro g i hi
  exact (h1.2 g).2.2.2 (by rw [hq'.1]; rfl) (by rw [hq'.2]; rfl) i hi

/-- A message that switches light 7 on, and the daemon that gets it. -/
def onMessage : DaemonStep := .message "homeassistant/light/cbus_7/set".toList (Json.utf8 "{\"state\": \"on\"}".toList)

def readyDaemon : Conn Client := ⟨[], { connected := true, mqttApi := true }⟩

theorem readyDaemon_ready : Ready readyDaemon := ⟨⟨rfl, by decide⟩, rfl, rfl⟩

/-- What the daemon does with that message. -/
theorem onMessage_line :
    writesOf (daemonDo .ascii (CBus.Json.loads exampleEnv) (fun _ => someTime) onMessage readyDaemon).2.1 =
      [ascii "\\053800790743h\r"] := by decide +kernel

theorem onLine : OrderLine (7, .on) (ascii "\\053800790743h\r") :=
  ⟨ascii "053800790743", 0x68, trivial, by unfold IsCode; decide, (spelled_iff _ _ _).2 (by decide +kernel), by decide +kernel⟩

/-- The report that unit 5 has switched light 7 off. -/
theorem offHeard : HeardLine 5 (7, .off) (ascii "050538000107B6\r\n") :=
  ⟨ascii "050538000107B6", trivial, by decide, (spelled_iff _ _ _).2 (by decide +kernel), by decide +kernel⟩

theorem split3 {α β γ : Type} (p : α × β × γ) : ∃ a b c, p = (a, b, c) := ⟨p.1, p.2.1, p.2.2, rfl⟩

/-- Light 7 is switched on by a message and off by unit 5: the command for the former gets on the network
before the latter or behind it. The daemon is told of the latter at the end. -/
theorem twoCommands (first : Bool) : ∃ w' : Street,
    GoesOn .ascii (CBus.Json.loads exampleEnv) (fun _ => someTime) (fun w x => first = true → Uncrossed .ascii w x)
      { daemon := readyDaemon } w' ∧
    AllQuiet w' ∧ w'.lights 7 = some (if first then 0 else 255) ∧ w'.shows 7 = some (.num (.int 0)) := by
  generalize hu : UniTable.ascii = u
  generalize hl : CBus.Json.loads exampleEnv = loads
  generalize hn : (fun _ : Nat => someTime) = now
  have hnow : ∀ n, DateTimeOk (now n) := by rw [← hn]; exact fun _ => someTime_ok
  have hline := onMessage_line
  rw [hu, hl, hn] at hline
  obtain ⟨c1, o1, r1, h1⟩ := split3 (daemonDo u loads now onMessage readyDaemon)
  rw [h1] at hline
  have hr1 := (street_message u loads now hnow readyDaemon readyDaemon_ready _ _ c1 o1 r1 h1).1
  obtain ⟨c2, o2, r2, h2⟩ := split3 (daemonDo u loads now (.receive (ascii "050538000107B6\r\n")) c1)
  have hs2 := (street_told u loads now hnow c1 hr1 5 (7, .off) _ offHeard c2 o2 r2 h2).2
  let w0 : Street := { daemon := readyDaemon }
  let w1 : Street := ⟨c1, [(7, .on)], [], fun _ => none, kept o1 fun _ => none⟩
  have g1 : Goes u loads now w0 (.message _ _) w1 := .message w0 _ _ c1 o1 r1 [(7, .on)] h1 (by
    rw [hline]
    exact .cons _ _ _ _ onLine .nil)
  cases first with
  | true =>
    let w2 : Street := { w1 with outbox := [], lights := commanded (7, .on) w1.lights }
    let w3 : Street := { w2 with inbox := [(7, .off)], lights := commanded (7, .off) w2.lights }
    let w4 : Street := { w3 with daemon := c2, inbox := [], shows := kept o2 w3.shows }
    have g2 : Goes u loads now w1 .passed w2 := .passed w1 (7, .on) [] rfl
    have g3 : Goes u loads now w2 (.switched 7 .off) w3 := .switched w2 7 .off trivial
    have g4 : Goes u loads now w3 (.told 5 _) w4 := .told w3 5 _ (7, .off) [] rfl offHeard c2 o2 r2 h2
    refine ⟨w4, .step _ _ _ _ g1 ?_ (.step _ _ _ _ g2 ?_ (.step _ _ _ _ g3 ?_ (.step _ _ _ _ g4 ?_ (.refl _)))), ⟨rfl, rfl⟩, rfl,
      hs2 _ 7⟩
    · rintro _ ga _ x hx; cases hx
    · intro _; trivial
    · rintro _ x hx; cases hx
    · intro _; trivial
  | false =>
    let w2 : Street := { w1 with inbox := [(7, .off)], lights := commanded (7, .off) w1.lights }
    let w3 : Street := { w2 with outbox := [], lights := commanded (7, .on) w2.lights }
    let w4 : Street := { w3 with daemon := c2, inbox := [], shows := kept o2 w3.shows }
    have g2 : Goes u loads now w1 (.switched 7 .off) w2 := .switched w1 7 .off trivial
    have g3 : Goes u loads now w2 .passed w3 := .passed w2 (7, .on) [] rfl
    have g4 : Goes u loads now w3 (.told 5 _) w4 := .told w3 5 _ (7, .off) [] rfl offHeard c2 o2 r2 h2
    exact ⟨w4, .step _ _ _ _ g1 (by simp) (.step _ _ _ _ g2 (by simp) (.step _ _ _ _ g3 (by simp) (.step _ _ _ _ g4 (by simp) (.refl _)))),
      ⟨rfl, rfl⟩, rfl, hs2 _ 7⟩

theorem goesOn_mono {u : UniTable} {loads : Bytes → Option JVal} {now : Nat → PyDateTime} {P Q : Street → Happening → Prop}
    (h : ∀ w x, P w x → Q w x) {w w' : Street} (hg : GoesOn u loads now P w w') : GoesOn u loads now Q w w' := by
  induction hg with
  | refl => exact .refl _
  | step w w1 w2 x hs hp _ ih => exact .step w w1 w2 x hs (h _ _ hp) ih

/-- C126 is false: light 7 is switched on by a message; before the command is on the network, unit 5 switches
the light off; then the light is switched on; and then the daemon is told that it was switched off. -/
theorem C126_false : ¬ C126_claim := by
  intro h
  obtain ⟨w', h1, h2, h3, h4⟩ := twoCommands false
  have := h _ _ _ _ w' (fun _ => someTime_ok) readyDaemon_ready ⟨rfl, rfl⟩ (by intro g i hi; cases hi)
    (goesOn_mono (fun _ _ _ => trivial) h1) h2 7 255 h3
  rw [h4] at this
  cases this

/-- The same without crossing: the light is off in the end, and that is what the broker shows. -/
example : ∃ w' : Street,
    GoesOn .ascii (CBus.Json.loads exampleEnv) (fun _ => someTime) (Uncrossed .ascii) { daemon := readyDaemon } w' ∧
    AllQuiet w' ∧ w'.lights 7 = some 0 ∧ w'.shows 7 = some (.num (.int 0)) := by
  obtain ⟨w', h1, h2, h3, h4⟩ := twoCommands true
  exact ⟨w', goesOn_mono (fun _ _ h => h rfl) h1, h2, h3, h4⟩

end CBus.Props
