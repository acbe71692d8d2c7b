import Verif.Props.Memory
import Verif.Props.Clockwork
import Verif.Props.Burst
import Verif.Spec.Apart

/-! # C166: lights do not influence each other -/

namespace CBus.Props
open CBus CBus.Spec

theorem byteOf_int_inj {a b : Int} (ha : 0 ≤ a) (ha' : a ≤ 255) (hb : 0 ≤ b) (hb' : b ≤ 255) (h : byteOf a = byteOf b) : a = b := by
  have := byteOf_inj (a := a.toNat) (b := b.toNat) (by omega) (by omega)
    (by rw [Int.toNat_of_nonneg ha, Int.toNat_of_nonneg hb]; exact h)
  omega

theorem topic_apart {k k' : TopicKind} {a b : Int} (h : (topicText k a).toList = (topicText k' b).toList) : k = k' ∧ a = b :=
  C59_distinct k k' a b (String.toList_inj.1 h)

/-- C166: a command for a light and a message that says what it is are none of others. -/
theorem C166_own (g : Int) (hg : 0 ≤ g) (hg' : g ≤ 255) :
    (∀ c data digits code, Spelled true (0x05 :: 0x38 :: 0x00 :: c :: byteOf g :: data) digits →
      ¬ OfOther g (.write (0x5c :: digits ++ [code, 0x0d]))) ∧
    (∀ m, TellsOf g m = true → ¬ OfOther g (.ext m)) ∧ ∀ e, lightOf e = some g → ¬ OfOther g (.event e) := by
  refine ⟨?_, ?_, ?_⟩
  · intro c data digits code hs h
    generalize hw : (Eff.write (π := MqttEff) (0x5c :: digits ++ [code, 0x0d])) = w at h
    cases h with
    | command ga hga h0 h255 c' data' digits' code' hs' =>
      rw [framed_digits (Eff.write.inj hw)] at hs
      have := spelled_body hs hs'
      simp only [List.cons.injEq, true_and] at this
      exact hga (byteOf_int_inj h0 h255 hg hg' this.2.1.symm)
    | light => cases hw
    | sensor => cases hw
    | news => cases hw
  · intro m hm h
    cases h with
    | light ga hga p q r =>
      simp only [TellsOf, Bool.or_eq_true, decide_eq_true_eq] at hm
      rcases hm with hm | hm
      · exact hga (topic_apart hm).2
      · cases (topic_apart hm).1
    | sensor ga hga p q r =>
      simp only [TellsOf, Bool.or_eq_true, decide_eq_true_eq] at hm
      rcases hm with hm | hm
      · cases (topic_apart hm).1
      · exact hga (topic_apart hm).2
  · intro e he h
    cases h with
    | news _ ga hga hne => rw [hga] at he; exact hne (Option.some.inj he)

theorem order_no_clock {c : UInt8} {b : UInt8} {data digits : Bytes} (hs : Spelled true (0x05 :: 0x38 :: 0x00 :: c :: b :: data) digits)
    (code : UInt8) (t : PyDateTime) (code' : UInt8) : ¬ ClockLine t code' (0x5c :: digits ++ [code, 0x0d]) := by
  rintro ⟨w, digits', -, hs', e⟩
  rw [framed_digits e] at hs
  have e := spelled_body hs hs'
  simp at e

theorem sameDeed_symm {e e' : Eff MqttEff} (h : SameDeed e e') : SameDeed e' e := by
  cases h with
  | same => exact .same _
  | code text a b ha hb => exact .code text b a hb ha
  | time t t' a b line line' h h' => exact .time t' t b a _ _ h' h

theorem other_same {g : Int} {e e' : Eff MqttEff} (h : SameDeed e e') (ho : OfOther g e) : OfOther g e' := by
  cases h with
  | same => exact ho
  | code text a b ha hb =>
    generalize hw : (Eff.write (π := MqttEff) (text ++ [a, 0x0d])) = w at ho
    cases ho with
    | command ga hga h0 h255 c' data' digits' code' hs' =>
      have := List.append_inj_left' (Eff.write.inj hw) rfl
      rw [this]
      exact .command ga hga h0 h255 c' data' digits' b hs'
    | light => cases hw
    | sensor => cases hw
    | news => cases hw
  | time t t' a b line line' h h' =>
    generalize hw : (Eff.write (π := MqttEff) line) = w at ho
    cases ho with
    | command ga hga h0 h255 c' data' digits' code' hs' =>
      rw [Eff.write.inj hw] at h
      exact absurd h (order_no_clock hs' _ _ _)
    | light => cases hw
    | sensor => cases hw
    | news => cases hw

theorem leaves_same {g : Int} {o o' : List (Eff MqttEff)} (h : SameDeeds o o') :
    ∀ l l', Leaves g o l → Leaves g o' l' → SameDeeds l l' := by
  induction h with
  | nil => intro l l' h h'; cases h; cases h'; exact .nil
  | cons e e' o o' h _ ih =>
    intro l l' hl hl'
    cases hl with
    | other _ _ _ h1 hr =>
      cases hl' with
      | other _ _ _ _ hr' => exact ih _ _ hr hr'
      | keeps _ _ _ h2 _ => exact absurd (other_same h h1) h2
    | keeps _ _ _ h1 hr =>
      cases hl' with
      | other _ _ _ h2 _ => exact absurd (other_same (sameDeed_symm h) h2) h1
      | keeps _ _ _ _ hr' => exact .cons _ _ _ _ h (ih _ _ hr hr')

theorem leaves_append {g : Int} : ∀ (a b l : List (Eff MqttEff)), Leaves g (a ++ b) l →
    ∃ la lb, l = la ++ lb ∧ Leaves g a la ∧ Leaves g b lb := by
  intro a
  induction a with
  | nil => exact fun b l h => ⟨[], l, rfl, .nil, h⟩
  | cons e a ih =>
    intro b l h
    cases h with
    | other _ _ _ he hr =>
      obtain ⟨la, lb, h1, h2, h3⟩ := ih b l hr
      exact ⟨la, lb, h1, .other _ _ _ he h2, h3⟩
    | keeps _ _ l' he hr =>
      obtain ⟨la, lb, h1, h2, h3⟩ := ih b l' hr
      exact ⟨e :: la, lb, by rw [h1]; rfl, .keeps _ _ _ he h2, h3⟩

theorem leaves_none {g : Int} : ∀ (o l : List (Eff MqttEff)), (∀ e ∈ o, OfOther g e) → Leaves g o l → l = []
  | [], _, _, h => by cases h; rfl
  | e :: o, l, ha, h => by
    cases h with
    | other _ _ _ _ hr => exact leaves_none o l (fun x hx => ha x (List.mem_cons_of_mem _ hx)) hr
    | keeps _ _ _ h2 _ => exact absurd (ha e List.mem_cons_self) h2

/-- C166: what is left is always there, and one only. -/
theorem C166_leaves (g : Int) (o : List (Eff MqttEff)) : ∃ l, Leaves g o l ∧ ∀ l', Leaves g o l' → l' = l := by
  induction o with
  | nil => exact ⟨[], .nil, fun l' h => by cases h; rfl⟩
  | cons e o ih =>
    obtain ⟨l, h1, h2⟩ := ih
    by_cases h : OfOther g e
    · refine ⟨l, .other _ _ _ h h1, fun l' h' => ?_⟩
      cases h' with
      | other _ _ _ _ hr => exact h2 _ hr
      | keeps _ _ _ hn _ => exact absurd h hn
    · refine ⟨e :: l, .keeps _ _ _ h h1, fun l' h' => ?_⟩
      cases h' with
      | other _ _ _ hn _ => exact absurd hn h
      | keeps _ _ _ _ hr => rw [h2 _ hr]

/-- A message that is not for `g`: all that is done is of other lights, and nothing that matters changes. -/
theorem message_other {u : UniTable} {read : Bytes → JVal → Prop} {now : Nat → PyDateTime} {ts : Int} {topic : Str} {payload : Bytes}
    {d d1 : DaemonState} {o : List (Eff MqttEff)} {r : Py Unit} (h : Does u read now ts (.message topic payload) d o d1 r) (g : Int)
    (hg : ∀ ga, ForLight u topic ga → ga ≠ g) : (∀ e ∈ o, OfOther g e) ∧ Agrees d d1 := by
  have none : ∀ e ∈ ([] : List (Eff MqttEff)), OfOther g e := fun e he => by cases he
  cases h with
  | elsewhere => exact ⟨none, rfl, rfl, rfl, rfl⟩
  | unreadable => exact ⟨none, rfl, rfl, rfl, rfl⟩
  | meaningless => exact ⟨none, rfl, rfl, rfl, rfl⟩
  | down => exact ⟨none, rfl, rfl, rfl, rfl⟩
  | negative => exact ⟨none, rfl, rfl, rfl, rfl⟩
  | message _ _ _ ga v m body digits o ht hv hm hc hb h hs ho =>
    refine ⟨?_, rfl, rfl, rfl, rfl⟩
    have hne := hg ga ht
    obtain ⟨-, -, -, -, -, -, -, h0, h255⟩ := ht
    intro e he
    rcases List.mem_cons.1 he with rfl | he
    · cases h with
      | off => exact .command ga hne h0 h255 _ _ _ _ hs
      | on => exact .command ga hne h0 h255 _ _ _ _ hs
      | ramp => exact .command ga hne h0 h255 _ _ _ _ hs
    · obtain ⟨x, hx, rfl⟩ := List.mem_map.1 he
      cases ho <;> (simp only [List.mem_cons, List.not_mem_nil, or_false] at hx; rcases hx with rfl | rfl)
      all_goals first
        | exact .light ga hne _ _ _
        | exact .sensor ga hne _ _ _

/-- A step does the same from states that agree. -/
theorem does_both {u : UniTable} {loads : Bytes → Option JVal} {now now' : Nat → PyDateTime} (hnow' : ∀ n, DateTimeOk (now' n)) {ts : Int}
    {x : DaemonStep} {d d1 d' d1' : DaemonState} {o o' : List (Eff MqttEff)} {r r' : Py Unit}
    (h : Does u (fun b v => loads b = some v) now ts x d o d1 r) (h' : Does u (fun b v => loads b = some v) now' ts x d' o' d1' r')
    (hd : Agrees d d') : SameDeeds o o' ∧ Agrees d1 d1' := by
  obtain ⟨o2, d2, h1, h2, h3⟩ := does_same hnow' h d' hd
  obtain ⟨rfl, rfl, -⟩ := does_unique hnow' h1 h'
  exact ⟨h2, h3⟩

theorem agrees_trans {a b c : DaemonState} (h : Agrees a b) (h' : Agrees b c) : Agrees a c :=
  ⟨h.1.trans h'.1, h.2.1.trans h'.2.1, h.2.2.1.trans h'.2.2.1, h.2.2.2.trans h'.2.2.2⟩

theorem agrees_symm {a b : DaemonState} (h : Agrees a b) : Agrees b a :=
  ⟨h.1.symm, h.2.1.symm, h.2.2.1.symm, h.2.2.2.symm⟩

theorem lives_apart {u : UniTable} {loads : Bytes → Option JVal} {now now' : Nat → PyDateTime} (hnow' : ∀ n, DateTimeOk (now' n))
    {ts : Int} {g : Int} {xs ys : List DaemonStep} (hs : Spares u g xs ys) :
    ∀ {d d1 d' d1' : DaemonState} {os os' : List (List (Eff MqttEff) × Py Unit)}, Agrees d d' →
    Lives u (fun b v => loads b = some v) now ts xs d os d1 → Lives u (fun b v => loads b = some v) now' ts ys d' os' d1' →
    ∀ l l', Leaves g (os.flatMap (·.1)) l → Leaves g (os'.flatMap (·.1)) l' → SameDeeds l l' := by
  induction hs with
  | nil =>
    intro d d1 d' d1' os os' _ h h' l l' hl hl'
    cases h; cases h'; cases hl; cases hl'
    exact .nil
  | same x xs ys _ ih =>
    intro d d1 d' d1' os os' hd h h' l l' hl hl'
    cases h with
    | cons _ _ _ e1 _ o r os h hr =>
      cases h' with
      | cons _ _ _ e1' _ o' r' os' h' hr' =>
        obtain ⟨g1, g2⟩ := does_both hnow' h h' hd
        obtain ⟨la, lb, rfl, k1, k2⟩ := leaves_append _ _ _ hl
        obtain ⟨la', lb', rfl, k1', k2'⟩ := leaves_append _ _ _ hl'
        exact SameDeeds.append (leaves_same g1 _ _ k1 k1') (ih g2 hr hr' _ _ k2 k2')
  | without topic payload xs ys ht _ ih =>
    intro d d1 d' d1' os os' hd h h' l l' hl hl'
    cases h with
    | cons _ _ _ e1 _ o r os h hr =>
      obtain ⟨g1, g2⟩ := message_other h g ht
      obtain ⟨la, lb, rfl, k1, k2⟩ := leaves_append _ _ _ hl
      rw [leaves_none _ _ g1 k1, List.nil_append]
      exact ih (agrees_trans (agrees_symm g2) hd) hr h' _ _ k2 hl'
  | adding topic payload xs ys ht _ ih =>
    intro d d1 d' d1' os os' hd h h' l l' hl hl'
    cases h' with
    | cons _ _ _ e1 _ o r os h' hr =>
      obtain ⟨g1, g2⟩ := message_other h' g ht
      obtain ⟨la, lb, rfl, k1, k2⟩ := leaves_append _ _ _ hl'
      rw [leaves_none _ _ g1 k1, List.nil_append]
      exact ih (agrees_trans hd g2) h hr _ _ hl k2

theorem spares_connected {u : UniTable} {g : Int} {xs ys : List DaemonStep} (h : Spares u g xs ys) :
    ∀ b, OnlyConnected b xs → OnlyConnected b ys := by
  induction h with
  | nil => exact fun b h => h
  | same x xs ys _ ih =>
    intro b hb
    cases hb with
    | made _ _ h => exact .made _ _ (ih _ h)
    | lost _ _ h => exact .lost _ _ (ih _ h)
    | receive _ _ h => exact .receive _ _ (ih _ h)
    | tick _ _ h => exact .tick _ _ (ih _ h)
    | broker _ _ _ h => exact .broker _ _ _ (ih _ h)
    | message _ _ _ _ h => exact .message _ _ _ _ (ih _ h)
  | without topic payload xs ys _ _ ih =>
    intro b hb
    cases hb with
    | message _ _ _ _ h => exact ih _ h
  | adding topic payload xs ys _ _ ih =>
    intro b hb
    exact .message _ _ _ _ (ih _ hb)

/-- C166: with or without messages for other lights, in between or not, the daemon does the same: the same commands for the light
`g`, the same messages about it, in the same order, and everything else too but the commands and messages that are about other
lights. Only confirmation codes and the times that are told may differ. -/
theorem C166_apart (u : UniTable) (loads : Bytes → Option JVal) (now now' : Nat → PyDateTime) (hnow : ∀ n, DateTimeOk (now n))
    (hnow' : ∀ n, DateTimeOk (now' n)) (c : Conn Client) (hk : c.st.nextConf < 20) (g : Int) (xs ys : List DaemonStep)
    (hx : OnlyConnected c.st.connected xs) (hs : Spares u g xs ys) (l l' : List (Eff MqttEff))
    (hl : Leaves g ((daemonRun u loads now xs c).2.flatMap (·.1)) l)
    (hl' : Leaves g ((daemonRun u loads now' ys c).2.flatMap (·.1)) l') : SameDeeds l l' := by
  obtain ⟨d, h, -⟩ := (C104_daemon u loads now hnow c hk xs hx _ _).1 rfl
  obtain ⟨d', h', -⟩ := (C104_daemon u loads now' hnow' c hk ys (spares_connected hs _ hx) _ _).1 rfl
  exact lives_apart hnow' hs ⟨rfl, rfl, rfl, rfl⟩ h h' _ _ hl hl'

theorem spares_append {u : UniTable} {g : Int} (pre : List DaemonStep) {xs ys : List DaemonStep} (h : Spares u g xs ys) :
    Spares u g (pre ++ xs) (pre ++ ys) := by
  induction pre with
  | nil => exact h
  | cons x pre ih => exact .same x _ _ ih

theorem spares_refl {u : UniTable} {g : Int} (xs : List DaemonStep) : Spares u g xs xs := by
  rw [← List.append_nil xs]
  exact spares_append xs .nil

/-- C166: two messages for different lights may come in either order: for every light the same is done. -/
theorem C166_order (u : UniTable) (loads : Bytes → Option JVal) (now now' : Nat → PyDateTime) (hnow : ∀ n, DateTimeOk (now n))
    (hnow' : ∀ n, DateTimeOk (now' n)) (c : Conn Client) (hk : c.st.nextConf < 20) (pre post : List DaemonStep) (t t' : Str)
    (p p' : Bytes) (ht : ∀ ga, ForLight u t ga → ¬ ForLight u t' ga)
    (hx : OnlyConnected c.st.connected (pre ++ .message t p :: .message t' p' :: post)) (g : Int) (l l' : List (Eff MqttEff))
    (hl : Leaves g ((daemonRun u loads now (pre ++ .message t p :: .message t' p' :: post) c).2.flatMap (·.1)) l)
    (hl' : Leaves g ((daemonRun u loads now' (pre ++ .message t' p' :: .message t p :: post) c).2.flatMap (·.1)) l') :
    SameDeeds l l' := by
  refine C166_apart u loads now now' hnow hnow' c hk g _ _ hx (spares_append pre ?_) l l' hl hl'
  by_cases h : ForLight u t g
  · have h' : ∀ ga, ForLight u t' ga → ga ≠ g := fun ga h1 e => ht g h (e ▸ h1)
    exact .adding _ _ _ _ h' (.same _ _ _ (.without _ _ _ _ h' (spares_refl post)))
  · have h' : ∀ ga, ForLight u t ga → ga ≠ g := fun ga h1 e => h (e ▸ h1)
    exact .without _ _ _ _ h' (.same _ _ _ (.adding _ _ _ _ h' (spares_refl post)))

/-- Light 8 is switched off before light 7 is switched on: what is sent for 7 has the next code and is the same otherwise. -/
example :
    let c : Conn Client := ⟨[], { connected := true, mqttApi := true }⟩
    let load : Bytes → Option JVal := fun b => some (.obj [("state".toList, .str (if b = [] then "ON".toList else "OFF".toList))])
    let off8 : DaemonStep := .message "homeassistant/light/cbus_8/set".toList [1]
    let on7 : DaemonStep := .message "homeassistant/light/cbus_7/set".toList []
    ((daemonRun .ascii load (fun _ => someTime) [off8, on7] c).2.flatMap (·.1) =
      [.write (ascii "\\0538000108BAh\r"), .ext (stateMessage 8 false (.int 0) 0 none), .ext (sensorMessage 8 false),
        .write (ascii "\\053800790743i\r"), .ext (stateMessage 7 true (.int 255) 0 none), .ext (sensorMessage 7 true)]) ∧
    (daemonRun .ascii load (fun _ => someTime) [on7] c).2.flatMap (·.1) =
      [.write (ascii "\\053800790743h\r"), .ext (stateMessage 7 true (.int 255) 0 none), .ext (sensorMessage 7 true)] := by
  decide +kernel

/-- That history is one without a message for another light. -/
example : Spares .ascii 7 [.message "homeassistant/light/cbus_8/set".toList [1], .message "homeassistant/light/cbus_7/set".toList []]
    [.message "homeassistant/light/cbus_7/set".toList []] :=
  .without _ _ _ _ (fun ga h e => by
    subst e
    have h8 : (topicText .lightSet 8).toList = "homeassistant/light/cbus_8/set".toList := by decide +kernel
    have := forLight_unique h ((C104_topic _ _ _).1 (h8 ▸ setTopic_isSetTopic .ascii 8 ⟨by decide, by decide⟩))
    exact absurd this (by decide)) (.same _ _ _ .nil)

/-- What is done for light 8 is of another light than 7. -/
example : OfOther 7 (.write (ascii "\\0538000108BAh\r")) ∧ OfOther 7 (.ext (stateMessage 8 false (.int 0) 0 none)) :=
  ⟨.command 8 (by decide) (by decide) (by decide) 0x01 [] (ascii "0538000108BA") 0x68 ((spelled_iff _ _ _).2 (by decide)),
    .light 8 (by decide) _ _ _⟩

theorem tellsOf_state (g ga : Int) (p : MqttPayload) (q : Nat) (r : Bool) :
    TellsOf g (.publish (topicText .lightState ga).toList p q r) = decide (ga = g) := by
  by_cases h : ga = g
  · subst h; simp [TellsOf]
  · simp only [TellsOf, h, decide_false, Bool.or_eq_false_iff, decide_eq_false_iff_not]
    exact ⟨fun e => h (topic_apart e).2, fun e => by cases (topic_apart e).1⟩

theorem tellsOf_sensor (g ga : Int) (p : MqttPayload) (q : Nat) (r : Bool) :
    TellsOf g (.publish (topicText .sensorState ga).toList p q r) = decide (ga = g) := by
  by_cases h : ga = g
  · subst h; simp [TellsOf]
  · simp only [TellsOf, h, decide_false, Bool.or_eq_false_iff, decide_eq_false_iff_not]
    exact ⟨fun e => (by cases (topic_apart e).1), fun e => h (topic_apart e).2⟩

theorem sal_tells (g : Int) (src : Option Int) (x : SAL) :
    (salMessages src [received x]).filter (TellsOf g) = if SaysOf g x then salMessages src [received x] else [] := by
  cases x with
  | lightOn ga =>
    by_cases h : ga = g <;>
      simp [salMessages, received, salEvent, eventMessages, stateMessage, sensorMessage, tellsOf_state, tellsOf_sensor, SaysOf, h]
  | lightOff ga =>
    by_cases h : ga = g <;>
      simp [salMessages, received, salEvent, eventMessages, stateMessage, sensorMessage, tellsOf_state, tellsOf_sensor, SaysOf, h]
  | lightRamp ga d l =>
    by_cases h : ga = g <;>
      simp [salMessages, received, salEvent, eventMessages, stateMessage, sensorMessage, tellsOf_state, tellsOf_sensor, SaysOf, h]
  | clockUpdate v => cases v <;> simp [salMessages, received, salEvent, eventMessages, SaysOf]
  | _ => simp [salMessages, received, salEvent, eventMessages, SaysOf]

theorem sals_tell (g : Int) (src : Option Int) : ∀ (l : List SAL), (salMessages src (l.map received)).filter (TellsOf g) =
    (l.filter (SaysOf g)).flatMap fun x => salMessages src [received x]
  | [] => rfl
  | x :: l => by
    have e : salMessages src ((x :: l).map received) = salMessages src [received x] ++ salMessages src (l.map received) := by
      simp only [salMessages, List.map_cons, List.filterMap_cons, List.filterMap_nil]
      cases salEvent src (received x) <;> simp
    rw [e, List.filter_append, sal_tells, sals_tell g src l, List.filter_cons]
    split <;> simp

/-- What reports say of `g`: the source and the command, one after the other. -/
def saidOf (g : Int) (items : List (PM × Bytes)) : List (Option Int × SAL) :=
  items.flatMap fun i => (i.1.sals.filter (SaysOf g)).map fun x => (i.1.src, x)

/-- C166: what is published of the light `g` depends on nothing but what the reports say of it, whatever they say of other lights
and however they are cut into (short) pieces. -/
theorem C166_reports (now now' : Nat → PyDateTime) (hnow : ∀ n, DateTimeOk (now n)) (hnow' : ∀ n, DateTimeOk (now' n)) (g : Int)
    (s s' : Client) (hu : Up s) (hu' : Up s') (ha : s.mqttApi = true) (ha' : s'.mqttApi = true)
    (items items' : List (PM × Bytes)) (hi : ∀ i ∈ items, EventLine i.1 i.2) (hi' : ∀ i ∈ items', EventLine i.1 i.2)
    (chunks chunks' : List Bytes) (hc : chunks.flatten = (items.map (·.2)).flatten)
    (hc' : chunks'.flatten = (items'.map (·.2)).flatten) (n n' : Nat) (hl : ∀ i ∈ items, i.2.length ≤ n)
    (hl' : ∀ i ∈ items', i.2.length ≤ n') (hd : ∀ d ∈ chunks, d.length + n ≤ 257) (hd' : ∀ d ∈ chunks', d.length + n' ≤ 257)
    (hsame : saidOf g items = saidOf g items') :
    (messagesOf (feed maxBufferSize (Client.handle (Mqtt.cbusHook now)) chunks ⟨[], s⟩).2.1).filter (TellsOf g) =
    (messagesOf (feed maxBufferSize (Client.handle (Mqtt.cbusHook now')) chunks' ⟨[], s'⟩).2.1).filter (TellsOf g) := by
  have key : ∀ items : List (PM × Bytes), (items.flatMap fun i => salMessages i.1.src (i.1.sals.map received)).filter (TellsOf g) =
      (saidOf g items).flatMap fun x => salMessages x.1 [received x.2] := by
    intro items
    unfold saidOf
    rw [List.filter_flatMap, List.flatMap_assoc]
    congr 1
    funext i
    rw [sals_tell, List.flatMap_map]
  rw [(C64_short now hnow s hu ha items hi chunks hc n hl hd).2.2, (C64_short now' hnow' s' hu' ha' items' hi' chunks' hc' n' hl' hd').2.2,
    key, key, hsame]

/-- With and without a report about light 8. -/
example :
    let s : Client := { connected := true, mqttApi := true }
    let both := (feed maxBufferSize (Client.handle (Mqtt.cbusHook fun _ => someTime)) [ascii "05053800790144\r\n05053800790243\r\n"] ⟨[], s⟩).2.1
    let one := (feed maxBufferSize (Client.handle (Mqtt.cbusHook fun _ => someTime)) [ascii "05053800790243\r\n"] ⟨[], s⟩).2.1
    (messagesOf both).length = 4 ∧ (messagesOf both).filter (TellsOf 2) = messagesOf one ∧
    messagesOf one = [stateMessage 2 true (.int 255) 0 (some 5), sensorMessage 2 true] := by decide +kernel

/-! ## Reports too -/

/-- Two histories that are the same but for other lights than `g`: what one has between the steps that they share are messages not
for `g` and reports that say nothing but of other lights; pieces that come with reports may differ in what these say of others. Here
every piece is made of whole reports. -/
inductive SameFor (u : UniTable) (g : Int) : List DaemonStep → List DaemonStep → Prop
  | nil : SameFor u g [] []
  | same (x : DaemonStep) (hx : ∀ b, x ≠ .receive b) (xs ys : List DaemonStep) (h : SameFor u g xs ys) : SameFor u g (x :: xs) (x :: ys)
  | heard (items items' : List (PM × Bytes)) (hi : ∀ i ∈ items, EventLine i.1 i.2) (hi' : ∀ i ∈ items', EventLine i.1 i.2)
      (hl : (items.map (·.2)).flatten.length ≤ 256) (hl' : (items'.map (·.2)).flatten.length ≤ 256)
      (hs : heardOf g (items.map (·.1)) = heardOf g (items'.map (·.1))) (xs ys : List DaemonStep) (h : SameFor u g xs ys) :
      SameFor u g (.receive (items.map (·.2)).flatten :: xs) (.receive (items'.map (·.2)).flatten :: ys)
  | message (topic : Str) (payload : Bytes) (ht : ∀ ga, ForLight u topic ga → ga ≠ g) (xs ys : List DaemonStep)
      (h : SameFor u g xs ys) : SameFor u g (.message topic payload :: xs) ys
  | message' (topic : Str) (payload : Bytes) (ht : ∀ ga, ForLight u topic ga → ga ≠ g) (xs ys : List DaemonStep)
      (h : SameFor u g xs ys) : SameFor u g xs (.message topic payload :: ys)
  | report (items : List (PM × Bytes)) (hi : ∀ i ∈ items, EventLine i.1 i.2) (hl : (items.map (·.2)).flatten.length ≤ 256)
      (hs : heardOf g (items.map (·.1)) = []) (xs ys : List DaemonStep) (h : SameFor u g xs ys) :
      SameFor u g (.receive (items.map (·.2)).flatten :: xs) ys
  | report' (items : List (PM × Bytes)) (hi : ∀ i ∈ items, EventLine i.1 i.2) (hl : (items.map (·.2)).flatten.length ≤ 256)
      (hs : heardOf g (items.map (·.1)) = []) (xs ys : List DaemonStep) (h : SameFor u g xs ys) :
      SameFor u g xs (.receive (items.map (·.2)).flatten :: ys)

/-- The events of reports. -/
def newsOf (items : List (PM × Bytes)) : List Event :=
  items.flatMap fun i => (i.1.sals.map received).filterMap (salEvent i.1.src)

theorem handles_append {m : Manner MqttEff} {a b : List Event} {k k1 k2 : Count} {o1 o2 : List (Eff MqttEff)}
    (h : Handles m a k o1 k1) (h2 : Handles m b k1 o2 k2) : Handles m (a ++ b) k (o1 ++ o2) k2 := by
  induction h with
  | nil k => exact h2
  | clock src es k k' line o hc hl _ ih => exact .clock src _ k k2 line _ hc hl (ih h2)
  | noClock src es k k' o hc _ ih => exact .noClock src _ k k2 _ hc (ih h2)
  | other e es k k' o he _ ih =>
    rw [List.append_assoc]
    exact .other e _ k k2 _ he (ih h2)

theorem hears_lines {m : Manner MqttEff} : ∀ (items : List (PM × Bytes)), (∀ i ∈ items, EventLine i.1 i.2) →
    ∀ {k k' : Count} {o : List (Eff MqttEff)} {d' : Bytes} {r : Py Unit},
    Hears m (items.map (·.2)).flatten k o d' k' r → d' = [] ∧ Handles m (newsOf items) k o k'
  | [], _, k, k', o, d', r, h => by
    have hw : FromPci true true [] (none, 0) := (C98_received [] true true none 0).1 rfl
    cases h with
    | waits => exact ⟨rfl, .nil _⟩
    | fault _ _ e h => exact (fromPci_no_fault hw h).elim
    | skips _ n _ _ _ _ _ h hn _ => have := fromPci_unique hw h; simp at this; exact absurd this.symm hn
    | message _ p n _ _ _ _ _ _ _ h => have := fromPci_unique hw h; simp at this
  | i :: items, hi, k, k', o, d', r, h => by
    obtain ⟨-, h2⟩ := eventLine_lineFor (hi i List.mem_cons_self)
    have hw := (C98_received _ true true _ _).1 (h2 (items.map (·.2)).flatten)
    simp only [List.map_cons, List.flatten_cons] at h
    cases h with
    | waits => have := fromPci_unique hw (by assumption); simp at this
    | fault _ _ e h => exact (fromPci_no_fault hw h).elim
    | skips _ n _ _ _ _ _ h hn _ => have := fromPci_unique hw h; simp at this
    | message _ p n _ k1 _ o1 o2 _ _ h ho hr =>
      have := fromPci_unique hw h
      simp only [Prod.mk.injEq, Option.some.injEq] at this
      obtain ⟨rfl, rfl⟩ := this
      rw [List.drop_left] at hr
      obtain ⟨e1, e2⟩ := hears_lines items (fun j hj => hi j (List.mem_cons_of_mem _ hj)) hr
      exact ⟨e1, handles_append ho e2⟩

theorem does_reports {u : UniTable} {read : Bytes → JVal → Prop} {now : Nat → PyDateTime} {ts : Int} {items : List (PM × Bytes)}
    (hi : ∀ i ∈ items, EventLine i.1 i.2) (hl : (items.map (·.2)).flatten.length ≤ 256) {d d1 : DaemonState}
    {o : List (Eff MqttEff)} {r : Py Unit} (hb : d.buffer = [])
    (h : Does u read now ts (.receive (items.map (·.2)).flatten) d o d1 r) :
    Agrees d d1 ∧ Handles ⟨true, fun e => if d.broker then eventMessages e else [], now⟩ (newsOf items) d.count o d1.count := by
  cases h with
  | receive _ _ b' o k r h =>
    rw [hb] at h
    cases h with
    | huge _ _ _ _ h => omega
    | overflow _ _ _ _ _ h => rw [List.length_nil, Nat.zero_add] at h; omega
    | ends _ _ _ _ _ _ _ _ _ h =>
      rw [List.nil_append] at h
      obtain ⟨rfl, h0⟩ := hears_lines items hi h
      exact ⟨⟨rfl, rfl, rfl, hb⟩, h0⟩
    | goesOn _ _ k1 _ _ _ o1 o2 b1 b2 _ _ h hr =>
      rw [List.nil_append] at h
      obtain ⟨rfl, h0⟩ := hears_lines items hi h
      cases hr
      rw [List.append_nil]
      exact ⟨⟨rfl, rfl, rfl, hb⟩, h0⟩

/-- An event that is not about another light. -/
def regards (g : Int) (e : Event) : Bool :=
  match lightOf e with
  | some ga => ga = g
  | none => true

theorem says_other {g ga : Int} {e : Event} (he : lightOf e = some ga) (h : ga ≠ g) : ∀ x ∈ eventMessages e, OfOther g (.ext x) := by
  intro x hx
  cases e <;> simp only [lightOf, reduceCtorEq, Option.some.injEq] at he <;> subst he <;>
    simp only [eventMessages, List.mem_cons, List.not_mem_nil, or_false] at hx
  all_goals rcases hx with rfl | rfl
  all_goals first
    | exact .light _ h _ _ _
    | exact .sensor _ h _ _ _

theorem says_own {g : Int} {e : Event} (h : regards g e = true) : ∀ x ∈ eventMessages e, ¬ OfOther g (.ext x) := by
  intro x hx ho
  cases e <;> simp only [regards, lightOf, decide_eq_true_eq] at h <;>
    simp only [eventMessages, List.mem_cons, List.not_mem_nil, or_false] at hx
  all_goals subst h
  all_goals rcases hx with rfl | rfl
  all_goals
    generalize hw : Eff.ext _ = w at ho
    cases ho with
    | command => cases hw
    | news => cases hw
    | light ga hne =>
      simp only [stateMessage, sensorMessage, Eff.ext.injEq, MqttEff.publish.injEq] at hw
      have := topic_apart hw.1
      first
        | exact hne this.2.symm
        | cases this.1
    | sensor ga hne =>
      simp only [stateMessage, sensorMessage, Eff.ext.injEq, MqttEff.publish.injEq] at hw
      have := topic_apart hw.1
      first
        | exact hne this.2.symm
        | cases this.1

theorem leaves_kept {g : Int} : ∀ (o l : List (Eff MqttEff)), (∀ e ∈ o, ¬ OfOther g e) → Leaves g o l → l = o
  | [], _, _, h => by cases h; rfl
  | e :: o, l, ha, h => by
    cases h with
    | other _ _ _ h2 _ => exact absurd h2 (ha e List.mem_cons_self)
    | keeps _ _ l h2 hr => rw [leaves_kept o l (fun x hx => ha x (List.mem_cons_of_mem _ hx)) hr]

theorem handles_leaves {g : Int} {b : Bool} {now : Nat → PyDateTime} {es : List Event} {k k' : Count} {o : List (Eff MqttEff)}
    (h : Handles ⟨true, fun e => if b then eventMessages e else [], now⟩ es k o k') : ∀ l, Leaves g o l →
    Handles ⟨true, fun e => if b then eventMessages e else [], now⟩ (es.filter (regards g)) k l k' := by
  induction h with
  | nil k => intro l hl; cases hl; exact .nil k
  | clock src es k k' line o hc hline _ ih =>
    intro l hl
    have he : ¬ OfOther g (.event (.clockRequest src)) := by
      intro h
      cases h with
      | news _ _ he _ => simp [lightOf] at he
    have hw : ¬ OfOther g (.write line) := by
      intro h
      generalize hx : Eff.write line = w at h
      cases h with
      | command ga hga h0 h255 c data digits code hs =>
        rw [Eff.write.inj hx] at hline
        exact order_no_clock hs _ _ _ hline
      | light => cases hx
      | sensor => cases hx
      | news => cases hx
    cases hl with
    | other _ _ _ h => exact absurd h he
    | keeps _ _ _ _ hl =>
      cases hl with
      | other _ _ _ h => exact absurd h hw
      | keeps _ _ l _ hl => exact .clock src _ k k' line l hc hline (ih l hl)
  | noClock src es k k' o hc => cases hc
  | other e es k k' o he _ ih =>
    intro l hl
    rw [List.filter_cons]
    obtain ⟨la, lb, rfl, h1, h2⟩ := leaves_append _ _ _ hl
    cases hce : regards g e with
    | true =>
      have := leaves_kept _ _ (fun x hx => ?_) h1
      · rw [this, if_pos rfl]
        exact .other e _ k k' lb he (ih lb h2)
      · rcases List.mem_cons.1 hx with rfl | hx
        · intro h
          cases h with
          | news _ ga hga hne => simp [regards, hga, hne] at hce
        · obtain ⟨y, hy, rfl⟩ := List.mem_map.1 hx
          cases b with
          | false => cases hy
          | true => exact says_own hce y hy
    | false =>
      have := leaves_none _ _ (fun x hx => ?_) h1
      · rw [this, List.nil_append, if_neg (by simp)]
        exact ih lb h2
      · obtain ⟨ga, hga, hne⟩ : ∃ ga, lightOf e = some ga ∧ ga ≠ g := by
          unfold regards at hce
          split at hce
          · rename_i ga hga; exact ⟨ga, hga, by simpa using hce⟩
          · cases hce
        rcases List.mem_cons.1 hx with rfl | hx
        · exact .news _ ga hga hne
        · obtain ⟨y, hy, rfl⟩ := List.mem_map.1 hx
          cases b with
          | false => cases hy
          | true => exact says_other hga hne y hy

theorem sal_concerns (g : Int) (src : Option Int) (x : SAL) :
    ((salEvent src (received x)).toList).filter (regards g) = if ElseWhere g x then [] else (salEvent src (received x)).toList := by
  cases x with
  | lightOn ga => by_cases h : ga = g <;> simp [received, salEvent, regards, lightOf, ElseWhere, h]
  | lightOff ga => by_cases h : ga = g <;> simp [received, salEvent, regards, lightOf, ElseWhere, h]
  | lightRamp ga d l => by_cases h : ga = g <;> simp [received, salEvent, regards, lightOf, ElseWhere, h]
  | lightTerminate ga => by_cases h : ga = g <;> simp [received, salEvent, regards, lightOf, ElseWhere, h]
  | clockUpdate v => cases v <;> simp [received, salEvent, regards, lightOf, ElseWhere]
  | _ => simp [received, salEvent, regards, lightOf, ElseWhere]

theorem sals_concern (g : Int) (src : Option Int) : ∀ (l : List SAL), ((l.map received).filterMap (salEvent src)).filter (regards g) =
    (l.filter (! ElseWhere g ·)).flatMap fun x => (salEvent src (received x)).toList
  | [] => rfl
  | x :: l => by
    have e : ((x :: l).map received).filterMap (salEvent src) =
        (salEvent src (received x)).toList ++ (l.map received).filterMap (salEvent src) := by
      rw [List.map_cons, List.filterMap_cons]
      cases salEvent src (received x) <;> rfl
    rw [e, List.filter_append, sal_concerns, sals_concern g src l, List.filter_cons]
    cases ElseWhere g x <;> simp

theorem newsOf_heard (g : Int) (items : List (PM × Bytes)) : (newsOf items).filter (regards g) =
    (heardOf g (items.map (·.1))).flatMap fun x => (salEvent x.1 (received x.2)).toList := by
  unfold newsOf heardOf
  rw [List.filter_flatMap, List.flatMap_map, List.flatMap_assoc]
  congr 1
  funext i
  rw [sals_concern, List.flatMap_map]

theorem handles_none {m : Manner MqttEff} {k k' : Count} {o : List (Eff MqttEff)} (h : Handles m [] k o k') : o = [] := by
  cases h; rfl

theorem lives_sameFor {u : UniTable} {loads : Bytes → Option JVal} {now now' : Nat → PyDateTime} (hnow : ∀ n, DateTimeOk (now n))
    (hnow' : ∀ n, DateTimeOk (now' n)) {ts : Int} {g : Int} {xs ys : List DaemonStep} (hs : SameFor u g xs ys) :
    ∀ {d d1 d' d1' : DaemonState} {os os' : List (List (Eff MqttEff) × Py Unit)}, Agrees d d' → d.buffer = [] →
    Lives u (fun b v => loads b = some v) now ts xs d os d1 → Lives u (fun b v => loads b = some v) now' ts ys d' os' d1' →
    ∀ l l', Leaves g (os.flatMap (·.1)) l → Leaves g (os'.flatMap (·.1)) l' → SameDeeds l l' := by
  induction hs with
  | nil =>
    intro d d1 d' d1' os os' _ _ h h' l l' hl hl'
    cases h; cases h'; cases hl; cases hl'
    exact .nil
  | same x hx xs ys _ ih =>
    intro d d1 d' d1' os os' hd hb h h' l l' hl hl'
    cases h with
    | cons _ _ _ e1 _ o r os h hr =>
      cases h' with
      | cons _ _ _ e1' _ o' r' os' h' hr' =>
        obtain ⟨g1, g2⟩ := does_both hnow' h h' hd
        obtain ⟨la, lb, rfl, k1, k2⟩ := leaves_append _ _ _ hl
        obtain ⟨la', lb', rfl, k1', k2'⟩ := leaves_append _ _ _ hl'
        have hb1 : e1.buffer = [] := by
          cases h <;> first | exact hb | exact absurd rfl (hx _)
        exact SameDeeds.append (leaves_same g1 _ _ k1 k1') (ih g2 hb1 hr hr' _ _ k2 k2')
  | heard items items' hi hi' hl hl' hs xs ys _ ih =>
    intro d d1 d' d1' os os' hd hb h h' l l' hll hll'
    cases h with
    | cons _ _ _ e1 _ o r os h hr =>
      cases h' with
      | cons _ _ _ e1' _ o' r' os' h' hr' =>
        obtain ⟨g1, g2⟩ := does_reports hi hl hb h
        obtain ⟨g1', g2'⟩ := does_reports hi' hl' (hd.2.2.2 ▸ hb) h'
        obtain ⟨la, lb, rfl, k1, k2⟩ := leaves_append _ _ _ hll
        obtain ⟨la', lb', rfl, k1', k2'⟩ := leaves_append _ _ _ hll'
        have q := handles_leaves g2 _ k1
        have q' := handles_leaves g2' _ k1'
        rw [newsOf_heard, ← hs, ← newsOf_heard, ← hd.2.1] at q'
        obtain ⟨o2, k3, q1, q2⟩ := handles_same hnow' q d'.count
        obtain ⟨rfl, -⟩ := handles_unique hnow' q1 q'
        exact SameDeeds.append q2 (ih (agrees_trans (agrees_symm g1) (agrees_trans hd g1')) (g1.2.2.2 ▸ hb) hr hr' _ _ k2 k2')
  | message topic payload ht xs ys _ ih =>
    intro d d1 d' d1' os os' hd hb h h' l l' hl hl'
    cases h with
    | cons _ _ _ e1 _ o r os h hr =>
      obtain ⟨g1, g2⟩ := message_other h g ht
      obtain ⟨la, lb, rfl, k1, k2⟩ := leaves_append _ _ _ hl
      rw [leaves_none _ _ g1 k1, List.nil_append]
      exact ih (agrees_trans (agrees_symm g2) hd) (g2.2.2.2 ▸ hb) hr h' _ _ k2 hl'
  | message' topic payload ht xs ys _ ih =>
    intro d d1 d' d1' os os' hd hb h h' l l' hl hl'
    cases h' with
    | cons _ _ _ e1 _ o r os h' hr =>
      obtain ⟨g1, g2⟩ := message_other h' g ht
      obtain ⟨la, lb, rfl, k1, k2⟩ := leaves_append _ _ _ hl'
      rw [leaves_none _ _ g1 k1, List.nil_append]
      exact ih (agrees_trans hd g2) hb h hr _ _ hl k2
  | report items hi hlen hs xs ys _ ih =>
    intro d d1 d' d1' os os' hd hb h h' l l' hl hl'
    cases h with
    | cons _ _ _ e1 _ o r os h hr =>
      obtain ⟨g1, g2⟩ := does_reports hi hlen hb h
      obtain ⟨la, lb, rfl, k1, k2⟩ := leaves_append _ _ _ hl
      have q := handles_leaves g2 _ k1
      rw [newsOf_heard, hs] at q
      rw [handles_none q, List.nil_append]
      exact ih (agrees_trans (agrees_symm g1) hd) (g1.2.2.2 ▸ hb) hr h' _ _ k2 hl'
  | report' items hi hlen hs xs ys _ ih =>
    intro d d1 d' d1' os os' hd hb h h' l l' hl hl'
    cases h' with
    | cons _ _ _ e1 _ o r os h' hr =>
      obtain ⟨g1, g2⟩ := does_reports hi hlen (hd.2.2.2 ▸ hb) h'
      obtain ⟨la, lb, rfl, k1, k2⟩ := leaves_append _ _ _ hl'
      have q := handles_leaves g2 _ k1
      rw [newsOf_heard, hs] at q
      rw [handles_none q, List.nil_append]
      exact ih (agrees_trans hd g1) hb h hr _ _ hl k2

/-- C166: two histories that are the same but for other lights than `g`, in the messages of the broker and in the reports of the
network, make the daemon do the same but for other lights. -/
theorem C166_whole (u : UniTable) (loads : Bytes → Option JVal) (now now' : Nat → PyDateTime) (hnow : ∀ n, DateTimeOk (now n))
    (hnow' : ∀ n, DateTimeOk (now' n)) (c : Conn Client) (hk : c.st.nextConf < 20) (hb : c.buf = []) (g : Int)
    (xs ys : List DaemonStep) (hx : OnlyConnected c.st.connected xs) (hy : OnlyConnected c.st.connected ys) (hs : SameFor u g xs ys)
    (l l' : List (Eff MqttEff)) (hl : Leaves g ((daemonRun u loads now xs c).2.flatMap (·.1)) l)
    (hl' : Leaves g ((daemonRun u loads now' ys c).2.flatMap (·.1)) l') : SameDeeds l l' := by
  obtain ⟨d, h, -⟩ := (C104_daemon u loads now hnow c hk xs hx _ _).1 rfl
  obtain ⟨d', h', -⟩ := (C104_daemon u loads now' hnow' c hk ys hy _ _).1 rfl
  exact lives_sameFor hnow hnow' hs ⟨rfl, rfl, rfl, rfl⟩ hb h h' _ _ hl hl'

/-- A report that unit 5 has switched on light 1 is one about another light than 7. -/
example : SameFor .ascii 7 [.receive (ascii "05053800790144\r\n"), .tick] [.tick] :=
  .report [(lampOn, ascii "05053800790144\r\n")] (fun i hi => by rw [List.mem_singleton.1 hi]; exact lampOn_line)
    (by decide +kernel) (by decide +kernel) _ _ (.same _ (fun _ h => by cases h) _ _ .nil)

/-- With it and without it: its own event and messages are all that is different. -/
example :
    let c : Conn Client := ⟨[], { connected := true, mqttApi := true }⟩
    let on7 : DaemonStep := .message "homeassistant/light/cbus_7/set".toList []
    let load : Bytes → Option JVal := fun _ => some (.obj [("state".toList, .str "ON".toList)])
    (daemonRun .ascii load (fun _ => someTime) [.receive (ascii "05053800790144\r\n"), on7] c).2.flatMap (·.1) =
      [.event (.lightingOn (some 5) 1), .ext (stateMessage 1 true (.int 255) 0 (some 5)), .ext (sensorMessage 1 true)] ++
      (daemonRun .ascii load (fun _ => someTime) [on7] c).2.flatMap (·.1) := by
  decide +kernel

end CBus.Props
