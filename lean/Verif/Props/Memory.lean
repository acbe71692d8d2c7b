import Verif.Props.Street
import Verif.Spec.Memory

/-! # C141: what the daemon does depends on nothing that it has done before -/

namespace CBus.Props
open CBus CBus.Spec

/-- All that matters: the two connections, the future and what is in the receive buffer. -/
def Agrees (d d' : DaemonState) : Prop :=
  d.connected = d'.connected ∧ d.broker = d'.broker ∧ d.future = d'.future ∧ d.buffer = d'.buffer

theorem SameDeeds.refl : ∀ o, SameDeeds o o
  | [] => .nil
  | e :: o => .cons e e o o (.same e) (refl o)

theorem SameDeeds.append {o1 o1' o2 o2' : List (Eff MqttEff)} (h : SameDeeds o1 o1') (h2 : SameDeeds o2 o2') :
    SameDeeds (o1 ++ o2) (o1' ++ o2') := by
  induction h with
  | nil => exact h2
  | cons e e' o o' h _ ih => exact .cons _ _ _ _ h ih

theorem handles_same {clock : Bool} {says : Event → List MqttEff} {now now' : Nat → PyDateTime}
    (hnow : ∀ n, DateTimeOk (now' n)) {es : List Event} {k k1 : Count} {o : List (Eff MqttEff)}
    (h : Handles ⟨clock, says, now⟩ es k o k1) (k' : Count) :
    ∃ o' k1', Handles ⟨clock, says, now'⟩ es k' o' k1' ∧ SameDeeds o o' := by
  induction h generalizing k' with
  | nil k => exact ⟨_, _, .nil k', .nil⟩
  | clock src es k k1 line o hc hl _ ih =>
    obtain ⟨o', k1', h1, h2⟩ := ih ⟨k'.codes + 1, k'.reads + 1⟩
    have hl' := clockLine_ok (now' k'.reads) (hnow _) (codeAt k'.codes)
    exact ⟨_, _, .clock src es k' k1' _ o' hc hl' h1,
      .cons _ _ _ _ (.same _) (.cons _ _ _ _ (.time _ _ _ _ _ _ hl hl') h2)⟩
  | noClock src es k k1 o hc _ ih =>
    obtain ⟨o', k1', h1, h2⟩ := ih k'
    exact ⟨_, _, .noClock src es k' k1' o' hc h1, .cons _ _ _ _ (.same _) h2⟩
  | other e es k k1 o he _ ih =>
    obtain ⟨o', k1', h1, h2⟩ := ih k'
    exact ⟨_, _, .other e es k' k1' o' he h1, .cons _ _ _ _ (.same _) (SameDeeds.append (SameDeeds.refl _) h2)⟩

theorem hears_same {clock : Bool} {says : Event → List MqttEff} {now now' : Nat → PyDateTime}
    (hnow : ∀ n, DateTimeOk (now' n)) {b b1 : Bytes} {k k1 : Count} {o : List (Eff MqttEff)} {r : Py Unit}
    (h : Hears ⟨clock, says, now⟩ b k o b1 k1 r) (k' : Count) :
    ∃ o' k1', Hears ⟨clock, says, now'⟩ b k' o' b1 k1' r ∧ SameDeeds o o' := by
  induction h generalizing k' with
  | waits d k h => exact ⟨_, _, .waits d k' h, .nil⟩
  | fault d k e h => exact ⟨_, _, .fault d k' e h, .nil⟩
  | skips d n k k1 o d' r h hn _ ih =>
    obtain ⟨o', k1', h1, h2⟩ := ih k'
    exact ⟨_, _, .skips d n k' k1' o' d' r h hn h1, h2⟩
  | message d p n k k1 k2 o1 o2 d' r h ho _ ih =>
    obtain ⟨o1', k1', h1, h2⟩ := handles_same hnow ho k'
    obtain ⟨o2', k2', h3, h4⟩ := ih k1'
    exact ⟨_, _, .message d p n k' k1' k2' o1' o2' d' r h h1 h3, SameDeeds.append h2 h4⟩

theorem converses_same {clock : Bool} {says : Event → List MqttEff} {now now' : Nat → PyDateTime}
    (hnow : ∀ n, DateTimeOk (now' n)) {b b1 : Bytes} {k k1 : Count} {ds : List Bytes} {o : List (Eff MqttEff)} {r : Py Unit}
    (h : Converses ⟨clock, says, now⟩ b k ds o b1 k1 r) (k' : Count) :
    ∃ o' k1', Converses ⟨clock, says, now'⟩ b k' ds o' b1 k1' r ∧ SameDeeds o o' := by
  induction h generalizing k' with
  | silence b k => exact ⟨_, _, .silence b k', .nil⟩
  | huge b k d ds h => exact ⟨_, _, .huge b k' d ds h, .nil⟩
  | overflow b k d ds h1 h2 => exact ⟨_, _, .overflow b k' d ds h1 h2, .nil⟩
  | ends b k k1 d ds o b1 e hl h =>
    obtain ⟨o', k1', h1, h2⟩ := hears_same hnow h k'
    exact ⟨_, _, .ends b k' k1' d ds o' b1 e hl h1, h2⟩
  | goesOn b k k1 k2 d ds o1 o2 b1 b2 r hl h _ ih =>
    obtain ⟨o1', k1', h1, h2⟩ := hears_same hnow h k'
    obtain ⟨o2', k2', h3, h4⟩ := ih k1'
    exact ⟨_, _, .goesOn b k' k1' k2' d ds o1' o2' b1 b2 r hl h1 h3, SameDeeds.append h2 h4⟩

/-- What a message does depends only on whether there is a connection to C-Bus. -/
theorem message_same {u : UniTable} {read : Bytes → JVal → Prop} {now now' : Nat → PyDateTime} {ts ts' : Int}
    {topic : Str} {payload : Bytes} {d d1 : DaemonState} {o : List (Eff MqttEff)} {r : Py Unit}
    (h : Does u read now ts (.message topic payload) d o d1 r) (d' : DaemonState) (hd : d.connected = d'.connected) :
    ∃ o' k, Does u read now' ts' (.message topic payload) d' o' { d' with count := k } r ∧ SameDeeds o o' := by
  cases h with
  | elsewhere _ _ _ h => exact ⟨_, _, .elsewhere d' _ _ h, .nil⟩
  | unreadable _ _ _ h => exact ⟨_, _, .unreadable d' _ _ h, .nil⟩
  | meaningless _ _ _ ga v e ht hv he => exact ⟨_, _, .meaningless d' _ _ ga v e ht hv he, .nil⟩
  | down _ _ _ ga v m ht hv hm hc => exact ⟨_, _, .down d' _ _ ga v m ht hv hm (hd ▸ hc), .nil⟩
  | negative _ _ _ ga v m ht hv hm hc hb ho => exact ⟨_, _, .negative d' _ _ ga v m ht hv hm (hd ▸ hc) hb ho, .nil⟩
  | message _ _ _ ga v m body digits o ht hv hm hc hb h hs ho =>
    exact ⟨_, _, .message d' _ _ ga v m body digits o ht hv hm (hd ▸ hc) hb h hs ho,
      .cons _ _ _ _ (.code _ _ _ (codeAt_isCode _) (codeAt_isCode _)) (SameDeeds.refl _)⟩

theorem does_same {u : UniTable} {read : Bytes → JVal → Prop} {now now' : Nat → PyDateTime}
    (hnow : ∀ n, DateTimeOk (now' n)) {ts : Int} {x : DaemonStep} {d d1 : DaemonState} {o : List (Eff MqttEff)} {r : Py Unit}
    (h : Does u read now ts x d o d1 r) (d' : DaemonState) (hd : Agrees d d') :
    ∃ o' d1', Does u read now' ts x d' o' d1' r ∧ SameDeeds o o' ∧ Agrees d1 d1' := by
  have hm : ∀ topic payload, x = .message topic payload →
      ∃ o' d1', Does u read now' ts x d' o' d1' r ∧ SameDeeds o o' ∧ Agrees d1 d1' := by
    rintro topic payload rfl
    obtain ⟨o', k, h1, h2⟩ := message_same (now' := now') (ts' := ts) h d' hd.1
    refine ⟨o', _, h1, h2, ?_⟩
    have : Agrees d d1 := by cases h <;> exact ⟨rfl, rfl, rfl, rfl⟩
    exact ⟨this.1 ▸ hd.1, this.2.1 ▸ hd.2.1, this.2.2.1 ▸ hd.2.2.1, this.2.2.2 ▸ hd.2.2.2⟩
  obtain ⟨e1, e2, e3, e4⟩ := hd
  cases h with
  | made =>
    refine ⟨_, _, .made d', ?_, ⟨rfl, e2, e3, e4⟩⟩
    have hc : ∀ text k k', SameDeed (.write (text ++ [codeAt k, 0x0d])) (.write (text ++ [codeAt k', 0x0d])) :=
      fun text k k' => .code text _ _ (codeAt_isCode _) (codeAt_isCode _)
    unfold setUp
    exact SameDeeds.append (.cons _ _ _ _ (.same _) (.cons _ _ _ _ (.same _) (.cons _ _ _ _ (.same _)
      (.cons _ _ _ _ (hc _ _ _) (.cons _ _ _ _ (hc _ _ _) (.cons _ _ _ _ (hc _ _ _) .nil)))))) (SameDeeds.refl _)
  | lost _ h => exact ⟨_, _, .lost d' (e3 ▸ h), .nil, ⟨rfl, e2, rfl, e4⟩⟩
  | lostAgain _ h => exact ⟨_, _, .lostAgain d' (e3 ▸ h), .nil, ⟨rfl, e2, e3, e4⟩⟩
  | lostUnseen _ h => exact ⟨_, _, .lostUnseen d' (e3 ▸ h), .nil, ⟨rfl, e2, e3, e4⟩⟩
  | receive _ b b' o k r h =>
    obtain ⟨o', k', h1, h2⟩ := converses_same hnow h d'.count
    rw [e2, e4] at h1
    exact ⟨_, _, .receive d' b b' o' k' r h1, h2, ⟨e1, e2, e3, rfl⟩⟩
  | tick _ line hc hl =>
    have hl' := clockLine_ok (now' d'.count.reads) (hnow _) (codeAt d'.count.codes)
    exact ⟨_, _, .tick d' _ (e1 ▸ hc) hl', .cons _ _ _ _ (.time _ _ _ _ _ _ hl hl') .nil, ⟨e1, e2, e3, e4⟩⟩
  | tickDown _ hc => exact ⟨_, _, .tickDown d' (e1 ▸ hc), .nil, ⟨e1, e2, e3, e4⟩⟩
  | broker _ labels o h => exact ⟨_, _, .broker d' labels o h, SameDeeds.refl _, ⟨e1, rfl, e3, e4⟩⟩
  | elsewhere => exact hm _ _ rfl
  | unreadable => exact hm _ _ rfl
  | meaningless => exact hm _ _ rfl
  | down => exact hm _ _ rfl
  | negative => exact hm _ _ rfl
  | message => exact hm _ _ rfl

theorem lives_same {u : UniTable} {read : Bytes → JVal → Prop} {now now' : Nat → PyDateTime}
    (hnow : ∀ n, DateTimeOk (now' n)) {ts : Int} {xs : List DaemonStep} {d d1 : DaemonState}
    {os : List (List (Eff MqttEff) × Py Unit)} (h : Lives u read now ts xs d os d1) (d' : DaemonState) (hd : Agrees d d') :
    ∃ os' d1', Lives u read now' ts xs d' os' d1' ∧ SameLife os os' ∧ Agrees d1 d1' := by
  induction h generalizing d' with
  | nil d => exact ⟨_, _, .nil d', .nil, hd⟩
  | cons x xs d d1 d2 o r os h _ ih =>
    obtain ⟨o', d1', h1, h2, h3⟩ := does_same hnow h d' hd
    obtain ⟨os', d2', h4, h5, h6⟩ := ih d1' h3
    exact ⟨_, _, .cons x xs d' d1' d2' o' r os' h1 h4, .cons _ _ _ _ _ h2 h5, h6⟩

/-- C141: two daemons to which the same happens do the same, if they are connected to the same things and
have the same in the receive buffer: whatever happened to them before, and whatever their clocks show. -/
theorem C141_same (u : UniTable) (loads : Bytes → Option JVal) (now now' : Nat → PyDateTime) (hnow : ∀ n, DateTimeOk (now n))
    (hnow' : ∀ n, DateTimeOk (now' n)) (c c' : Conn Client) (hk : c.st.nextConf < 20) (hk' : c'.st.nextConf < 20)
    (h1 : c.st.connected = c'.st.connected) (h2 : c.st.mqttApi = c'.st.mqttApi) (h3 : c.st.future = c'.st.future)
    (h4 : c.buf = c'.buf) (h5 : c.st.timesync = c'.st.timesync) (xs : List DaemonStep)
    (hx : OnlyConnected c.st.connected xs) :
    SameLife (daemonRun u loads now xs c).2 (daemonRun u loads now' xs c').2 := by
  obtain ⟨d, hl, -⟩ := (C104_daemon u loads now hnow c hk xs hx _ _).1 rfl
  obtain ⟨os', d', hl', hs, -⟩ := lives_same hnow' hl (stateOf c') ⟨h1, h2, h3, h4⟩
  rw [h5] at hl'
  rw [(C104_daemon u loads now' hnow' c' hk' xs (h1 ▸ hx) _ _).2 ⟨d', hl', rfl⟩]
  exact hs

/-- C141: what a message does depends on nothing but whether there is a connection to C-Bus. So a message
that the broker delivers twice gives the same command and the same state twice. -/
theorem C141_message (u : UniTable) (loads : Bytes → Option JVal) (now : Nat → PyDateTime) (hnow : ∀ n, DateTimeOk (now n))
    (c c' : Conn Client) (hk : c.st.nextConf < 20) (hk' : c'.st.nextConf < 20) (h : c.st.connected = c'.st.connected)
    (topic : Str) (payload : Bytes) :
    SameDeeds (daemonDo u loads now (.message topic payload) c).2.1 (daemonDo u loads now (.message topic payload) c').2.1 ∧
      (daemonDo u loads now (.message topic payload) c).2.2 = (daemonDo u loads now (.message topic payload) c').2.2 := by
  have hx : ∀ b, OnlyConnected b [.message topic payload] := fun b => .message b topic payload [] (.nil b)
  obtain ⟨d, hl, -⟩ := (C104_daemon u loads now hnow c hk [.message topic payload] (hx _) _ _).1 rfl
  cases hl with
  | cons _ _ _ d1 _ o r os hd _ =>
    obtain ⟨o', k, h1, h2⟩ := message_same (now' := now) (ts' := c'.st.timesync) hd (stateOf c') h
    have := (C104_daemon u loads now hnow c' hk' [.message topic payload] (hx _) _ _).2
      ⟨_, .cons _ _ _ _ _ _ _ _ h1 (.nil _), rfl⟩
    have e : (daemonRun u loads now [.message topic payload] c').2 =
        [((daemonDo u loads now (.message topic payload) c').2.1, (daemonDo u loads now (.message topic payload) c').2.2)] := rfl
    rw [this] at e
    simp only [List.cons.injEq, and_true, Prod.mk.injEq] at e
    rw [← e.1, ← e.2]
    exact ⟨h2, rfl⟩

theorem sameDeeds_messages {o o' : List (Eff MqttEff)} (h : SameDeeds o o') : messagesOf o = messagesOf o' := by
  induction h with
  | nil => rfl
  | cons e e' o o' h _ ih =>
    cases h with
    | same => cases e <;> simpa [messagesOf] using ih
    | code => simpa [messagesOf] using ih
    | time => simpa [messagesOf] using ih

theorem sameDeeds_carry {o o' : List (Eff MqttEff)} (h : SameDeeds o o') {xs xs' : List (UInt8 × Order)}
    (hx : Carry (writesOf o) xs) (hx' : Carry (writesOf o') xs') : xs = xs' := by
  induction h generalizing xs xs' with
  | nil => cases hx; cases hx'; rfl
  | cons e e' o o' h _ ih =>
    have two : ∀ line line', Carry (writesOf (Eff.write (π := MqttEff) line :: o)) xs →
        Carry (writesOf (Eff.write (π := MqttEff) line' :: o')) xs' →
        (∀ x x', OrderLine x line → OrderLine x' line' → x = x') → xs = xs' := by
      intro line line' h1 h2 hh
      have e1 : writesOf (Eff.write (π := MqttEff) line :: o) = line :: writesOf o := rfl
      have e2 : writesOf (Eff.write (π := MqttEff) line' :: o') = line' :: writesOf o' := rfl
      rw [e1] at h1
      rw [e2] at h2
      cases h1 with
      | cons _ x _ ys hl hr =>
        cases h2 with
        | cons _ x' _ ys' hl' hr' => rw [hh x x' hl hl', ih hr hr']
    cases h with
    | same =>
      cases e with
      | write line => exact two _ _ hx hx' fun x x' h1 h2 => orderLine_inj h1 h2
      | _ => exact ih hx hx'
    | code text a b ha hb =>
      refine two _ _ hx hx' fun x x' h1 h2 => orderLine_inj h1 ?_
      obtain ⟨d, c, k1, k2, k3, k4⟩ := h2
      refine ⟨d, a, k1, ha, k3, ?_⟩
      rw [List.append_inj_left' k4 rfl]
    | time t t' a b line line' hl hl' =>
      refine two _ _ hx hx' fun x x' h1 _ => ?_
      obtain ⟨d, c, k1, k2, k3, k4⟩ := h1
      obtain ⟨w, d', _, k5, k6⟩ := hl
      rw [k6] at k4
      simp only [List.cons_append, List.cons.injEq, true_and] at k4
      rw [List.append_inj_left' k4 rfl] at k5
      have := spelled_body k3 k5
      simp at this

/-- C141 among the lights: a message that comes twice puts the same command on its way twice, the broker shows
the same after the second as after the first, and so the lights come to the same levels. -/
theorem C141_twice (u : UniTable) (loads : Bytes → Option JVal) (now : Nat → PyDateTime) (hnow : ∀ n, DateTimeOk (now n))
    (w w1 w2 : Street) (hr : Ready w.daemon) (topic : Str) (payload : Bytes)
    (h1 : Goes u loads now w (.message topic payload) w1) (h2 : Goes u loads now w1 (.message topic payload) w2) :
    w2.shows = w1.shows ∧ ∃ xs, w1.outbox = w.outbox ++ xs ∧ w2.outbox = w.outbox ++ xs ++ xs ∧
      ∀ lights, (xs ++ xs).foldl (fun l x => commanded x l) lights = xs.foldl (fun l x => commanded x l) lights := by
  cases h1 with
  | message _ _ c o r xs h hx =>
    cases h2 with
    | message _ _ c' o' r' xs' h' hx' =>
      have hs := street_message u loads now hnow _ hr topic payload _ _ _ h
      have := (C141_message u loads now hnow w.daemon c hr.1.2 hs.1.1.2 (hr.1.1.trans hs.1.1.1.symm) topic payload).1
      rw [h] at this
      simp only at h'
      rw [h'] at this
      simp only at this
      rw [← sameDeeds_carry this hx hx']
      refine ⟨?_, xs, rfl, rfl, ?_⟩
      · funext g
        simp only [kept, sameDeeds_messages this]
        cases shown g.toNat (messagesOf o') <;> simp
      · intro lights
        rcases hs.2 with ⟨hw, -⟩ | ⟨ga, order, line, -, hw, ho, -⟩
        · rw [hw] at hx
          cases hx
          rfl
        · rw [hw] at hx
          rw [carry_single ho hx]
          funext g
          simp only [List.singleton_append, List.foldl_cons, List.foldl_nil, commanded]
          split <;> rfl

/-- A message that does something, to a daemon that has done nothing and to one that has done much. -/
example : ∃ o o' : List (Eff MqttEff), o ≠ o' ∧ SameDeeds o o' ∧
    o = [.write (ascii "\\0538001207FFABh\r"), .ext (stateMessage 7 true (.int 255) 5 none), .ext (sensorMessage 7 true)] ∧
    o' = (Mqtt.onMessage .ascii (fun _ => some (.obj [("state".toList, .str "ON".toList), ("transition".toList, .num (.int 5))]))
      "homeassistant/light/cbus_7/set".toList [] { connected := true, nextConf := 9, clockReads := 1000, mqttApi := true }).2.1 := by
  refine ⟨_, [.write (ascii "\\0538001207FFABq\r"), .ext (stateMessage 7 true (.int 255) 5 none), .ext (sensorMessage 7 true)],
    ?_, ?_, rfl, ?_⟩
  · intro h
    exact absurd (congrArg writesOf h) (by decide +kernel)
  · exact .cons _ _ _ _ (.code (ascii "\\0538001207FFAB") 0x68 0x71 (by unfold IsCode; decide) (by unfold IsCode; decide)) (SameDeeds.refl _)
  · decide +kernel

/-- What is not the same: to switch a light on and to switch it off. -/
example : ¬ SameDeed (.write (ascii "\\053800790743h\r")) (.write (ascii "\\0538000107BBh\r")) := by
  intro h
  have h1 : OrderLine (7, .on) (ascii "\\053800790743h\r") :=
    ⟨ascii "053800790743", 0x68, trivial, by unfold IsCode; decide, (spelled_iff _ _ _).2 (by decide), by decide⟩
  have h2 : OrderLine (7, .off) (ascii "\\0538000107BBh\r") :=
    ⟨ascii "0538000107BB", 0x68, trivial, by unfold IsCode; decide, (spelled_iff _ _ _).2 (by decide), by decide⟩
  have := sameDeeds_carry (.cons _ _ _ _ h .nil) (.cons _ _ _ _ h1 .nil) (.cons _ _ _ _ h2 .nil)
  exact absurd this (by decide)

end CBus.Props
