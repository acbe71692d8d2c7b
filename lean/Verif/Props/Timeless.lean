import Verif.Props.Apart
import Verif.Spec.Timeless

/-! # C170: what the settings for the time have an effect on -/

namespace CBus.Props
open CBus CBus.Spec

theorem time_same {e e' : Eff MqttEff} (h : SameDeed e e') (ho : OfTime e) : OfTime e' := by
  cases h with
  | same => exact ho
  | code text a b ha hb =>
    cases ho with
    | tells t code line hl =>
      obtain ⟨w, digits, hw, hs, e⟩ := hl
      have : text = 0x5c :: digits := List.append_inj_left' e rfl
      rw [this]
      exact .tells t b _ ⟨w, digits, hw, hs, rfl⟩
  | time t t' a b line line' h h' => exact .tells t' b _ h'

theorem order_of_deed {e e' : Eff MqttEff} (h : SameDeed e e') (ho : ¬ OfTime e) : SameOrder e e' := by
  cases h with
  | same => exact .same _
  | code text a b ha hb => exact .code text a b ha hb
  | time t t' a b line line' h h' => exact absurd (.tells t a _ h) ho

theorem timeless_same {o o' : List (Eff MqttEff)} (h : SameDeeds o o') :
    ∀ l l', Timeless o l → Timeless o' l' → SameOrders l l' := by
  induction h with
  | nil => intro l l' h h'; cases h; cases h'; exact .nil
  | cons e e' o o' h _ ih =>
    intro l l' hl hl'
    cases hl with
    | time _ _ _ h1 hr =>
      cases hl' with
      | time _ _ _ _ hr' => exact ih _ _ hr hr'
      | keeps _ _ _ h2 _ => exact absurd (time_same h h1) h2
    | keeps _ _ _ h1 hr =>
      cases hl' with
      | time _ _ _ h2 _ => exact absurd (time_same (sameDeed_symm h) h2) h1
      | keeps _ _ _ _ hr' => exact .cons _ _ _ _ (order_of_deed h h1) (ih _ _ hr hr')

theorem timeless_append : ∀ (a b l : List (Eff MqttEff)), Timeless (a ++ b) l →
    ∃ la lb, l = la ++ lb ∧ Timeless a la ∧ Timeless b lb := by
  intro a
  induction a with
  | nil => exact fun b l h => ⟨[], l, rfl, .nil, h⟩
  | cons e a ih =>
    intro b l h
    cases h with
    | time _ _ _ he hr =>
      obtain ⟨la, lb, h1, h2, h3⟩ := ih b l hr
      exact ⟨la, lb, h1, .time _ _ _ he h2, h3⟩
    | keeps _ _ l' he hr =>
      obtain ⟨la, lb, h1, h2, h3⟩ := ih b l' hr
      exact ⟨e :: la, lb, by rw [h1]; rfl, .keeps _ _ _ he h2, h3⟩

theorem timeless_none : ∀ (o l : List (Eff MqttEff)), (∀ e ∈ o, OfTime e) → Timeless o l → l = []
  | [], _, _, h => by cases h; rfl
  | e :: o, l, ha, h => by
    cases h with
    | time _ _ _ _ hr => exact timeless_none o l (fun x hx => ha x (List.mem_cons_of_mem _ hx)) hr
    | keeps _ _ _ h2 _ => exact absurd (ha e List.mem_cons_self) h2

theorem SameOrders.append {a a' b b' : List (Eff MqttEff)} (h : SameOrders a a') (h' : SameOrders b b') :
    SameOrders (a ++ b) (a' ++ b') := by
  induction h with
  | nil => exact h'
  | cons _ _ _ _ hx _ ih => exact .cons _ _ _ _ hx ih

/-- C170: what is left is always there, and one only. -/
theorem C170_left (o : List (Eff MqttEff)) : ∃ l, Timeless o l ∧ ∀ l', Timeless o l' → l' = l := by
  induction o with
  | nil => exact ⟨[], .nil, fun l' h => by cases h; rfl⟩
  | cons e o ih =>
    obtain ⟨l, h1, h2⟩ := ih
    by_cases h : OfTime e
    · refine ⟨l, .time _ _ _ h h1, fun l' h' => ?_⟩
      cases h' with
      | time _ _ _ _ hr => exact h2 _ hr
      | keeps _ _ _ hn _ => exact absurd h hn
    · refine ⟨e :: l, .keeps _ _ _ h h1, fun l' h' => ?_⟩
      cases h' with
      | time _ _ _ hn _ => exact absurd hn h
      | keeps _ _ _ _ hr => rw [h2 _ hr]

/-- C170: commands for lights, messages to the broker and calls of handlers are always kept. -/
theorem C170_kept : (∀ c b data digits code, Spelled true (0x05 :: 0x38 :: 0x00 :: c :: b :: data) digits →
      ¬ OfTime (.write (0x5c :: digits ++ [code, 0x0d]))) ∧
    (∀ m, ¬ OfTime (.ext m)) ∧ ∀ e, ¬ OfTime (.event e) := by
  refine ⟨?_, (fun m h => by cases h), (fun e h => by cases h)⟩
  intro c b data digits code hs h
  generalize hw : (Eff.write (π := MqttEff) (0x5c :: digits ++ [code, 0x0d])) = w at h
  cases h with
  | tells t code' line hl =>
    rw [← Eff.write.inj hw] at hl
    exact order_no_clock hs _ _ _ hl
  | starts => cases hw

theorem tick_time {u : UniTable} {read : Bytes → JVal → Prop} {now : Nat → PyDateTime} {ts : Int} {d d1 : DaemonState}
    {o : List (Eff MqttEff)} {r : Py Unit} (h : Does u read now ts .tick d o d1 r) : (∀ e ∈ o, OfTime e) ∧ Agrees d d1 := by
  cases h with
  | tick _ line hc hl =>
    refine ⟨?_, rfl, rfl, rfl, rfl⟩
    intro e he
    rw [List.mem_singleton] at he
    subst he
    exact .tells _ _ _ hl
  | tickDown _ hc => exact ⟨(fun e he => by cases he), rfl, rfl, rfl, rfl⟩

theorem does_synced {u : UniTable} {read : Bytes → JVal → Prop} {now : Nat → PyDateTime} {ts : Int} (ts' : Int) {x : DaemonStep}
    {d d1 : DaemonState} {o : List (Eff MqttEff)} {r : Py Unit} (h : Does u read now ts x d o d1 r) :
    ∃ a b b', o = a ++ b ∧ (∀ e ∈ b, OfTime e) ∧ (∀ e ∈ b', OfTime e) ∧ Does u read now ts' x d (a ++ b') d1 r := by
  have hn : ∀ e ∈ ([] : List (Eff MqttEff)), OfTime e := fun e he => by cases he
  have keep : Does u read now ts' x d o d1 r →
      ∃ a b b', o = a ++ b ∧ (∀ e ∈ b, OfTime e) ∧ (∀ e ∈ b', OfTime e) ∧ Does u read now ts' x d (a ++ b') d1 r := by
    intro h
    exact ⟨o, [], [], (List.append_nil o).symm, hn, hn, by rw [List.append_nil]; exact h⟩
  cases h with
  | made =>
    have hs : ∀ t : Int, ∀ e ∈ (if t = 0 then [] else [Eff.startTimesync] : List (Eff MqttEff)), OfTime e := by
      intro t e he
      split at he
      · cases he
      · rw [List.mem_singleton] at he
        subst he
        exact .starts
    exact ⟨_, _, _, rfl, hs ts, hs ts', .made d⟩
  | lost _ hf => exact keep (.lost d hf)
  | lostAgain _ hf => exact keep (.lostAgain d hf)
  | lostUnseen _ hf => exact keep (.lostUnseen d hf)
  | receive _ b b' o k r h => exact keep (.receive d b b' o k r h)
  | tick _ line hc hl => exact keep (.tick d line hc hl)
  | tickDown _ hc => exact keep (.tickDown d hc)
  | broker _ labels o h => exact keep (.broker d labels o h)
  | elsewhere _ t p h => exact keep (.elsewhere d t p h)
  | unreadable _ t p h => exact keep (.unreadable d t p h)
  | meaningless _ t p ga v e h1 h2 h3 => exact keep (.meaningless d t p ga v e h1 h2 h3)
  | down _ t p ga v m h1 h2 h3 h4 => exact keep (.down d t p ga v m h1 h2 h3 h4)
  | negative _ t p ga v m h1 h2 h3 h4 h5 h6 => exact keep (.negative d t p ga v m h1 h2 h3 h4 h5 h6)
  | message _ t p ga v m body digits o h1 h2 h3 h4 h5 h6 h7 h8 =>
    exact keep (.message d t p ga v m body digits o h1 h2 h3 h4 h5 h6 h7 h8)

theorem lives_timeless {u : UniTable} {loads : Bytes → Option JVal} {now now' : Nat → PyDateTime} (hnow' : ∀ n, DateTimeOk (now' n))
    {ts ts' : Int} {xs ys : List DaemonStep} (hs : Resynced xs ys) :
    ∀ {d d1 d' d1' : DaemonState} {os os' : List (List (Eff MqttEff) × Py Unit)}, Agrees d d' →
    Lives u (fun b v => loads b = some v) now ts xs d os d1 → Lives u (fun b v => loads b = some v) now' ts' ys d' os' d1' →
    ∀ l l', Timeless (os.flatMap (·.1)) l → Timeless (os'.flatMap (·.1)) l' → SameOrders l l' := by
  induction hs with
  | nil =>
    intro d d1 d' d1' os os' _ h h' l l' hl hl'
    cases h; cases h'; cases hl; cases hl'
    exact .nil
  | same x xs ys _ ih =>
    intro d d1 d' d1' os os' hd h h' l l' hl hl'
    cases h with
    | cons _ _ _ e1 _ o r os h hr =>
      cases h' with
      | cons _ _ _ e1' _ o' r' os' h' hr' =>
        obtain ⟨a, b, b', ha, hb, hb', h''⟩ := does_synced ts h'
        obtain ⟨g1, g2⟩ := does_both hnow' h h'' hd
        obtain ⟨la, lb, rfl, k1, k2⟩ := timeless_append _ _ _ hl
        obtain ⟨la', lb', rfl, k1', k2'⟩ := timeless_append _ _ _ hl'
        refine SameOrders.append ?_ (ih g2 hr hr' _ _ k2 k2')
        rw [ha] at k1'
        obtain ⟨p, q, rfl, k3, k4⟩ := timeless_append _ _ _ k1'
        rw [timeless_none _ _ hb k4, List.append_nil]
        refine timeless_same g1 _ _ k1 ?_
        have e : ∀ b' : List (Eff MqttEff), (∀ e ∈ b', OfTime e) → Timeless b' [] := by
          intro b' hb'
          induction b' with
          | nil => exact .nil
          | cons x b' ih =>
            exact .time _ _ _ (hb' x List.mem_cons_self) (ih fun e he => hb' e (List.mem_cons_of_mem _ he))
        have e2 : ∀ a p : List (Eff MqttEff), Timeless a p → Timeless (a ++ b') p := by
          intro a p h
          induction h with
          | nil => exact e b' hb'
          | time x _ _ h _ ih => exact .time _ _ _ h ih
          | keeps x _ _ h _ ih => exact .keeps _ _ _ h ih
        exact e2 a p k3
  | without xs ys _ ih =>
    intro d d1 d' d1' os os' hd h h' l l' hl hl'
    cases h with
    | cons _ _ _ e1 _ o r os h hr =>
      obtain ⟨g1, g2⟩ := tick_time h
      obtain ⟨la, lb, rfl, k1, k2⟩ := timeless_append _ _ _ hl
      rw [timeless_none _ _ g1 k1, List.nil_append]
      exact ih (agrees_trans (agrees_symm g2) hd) hr h' _ _ k2 hl'
  | adding xs ys _ ih =>
    intro d d1 d' d1' os os' hd h h' l l' hl hl'
    cases h' with
    | cons _ _ _ e1 _ o r os h' hr =>
      obtain ⟨g1, g2⟩ := tick_time h'
      obtain ⟨la, lb, rfl, k1, k2⟩ := timeless_append _ _ _ hl'
      rw [timeless_none _ _ g1 k1, List.nil_append]
      exact ih (agrees_trans hd g2) h hr _ _ hl k2

theorem resynced_connected {xs ys : List DaemonStep} (h : Resynced xs ys) : ∀ b, OnlyConnected b xs → OnlyConnected b ys := by
  induction h with
  | nil => exact fun b h => h
  | same x xs ys _ ih =>
    intro b hb
    cases hb with
    | made _ _ h => exact .made _ _ (ih _ h)
    | lost _ _ h => exact .lost _ _ (ih _ h)
    | receive _ _ h => exact .receive _ _ (ih _ h)
    | tick _ _ h => exact .tick _ _ (ih _ h)
    | broker _ _ _ h => exact .broker _ _ _ (ih _ h)
    | message _ _ _ _ h => exact .message _ _ _ _ (ih _ h)
  | without xs ys _ ih =>
    intro b hb
    cases hb with
    | tick _ _ h => exact ih _ h
  | adding xs ys _ ih => exact fun b hb => .tick _ _ (ih _ hb)

/-- C170: two daemons in the same state, but with other settings of the clock (the interval of time
signals, whether requests are answered), other readings of the clock and another count of codes, live
through the same but for time signals. Then, commands that tell the time aside, both do the same in
the same order: only the confirmation codes may differ. -/
theorem C170_timeless (u : UniTable) (loads : Bytes → Option JVal) (now now' : Nat → PyDateTime) (hnow : ∀ n, DateTimeOk (now n))
    (hnow' : ∀ n, DateTimeOk (now' n)) (c c' : Conn Client) (hk : c.st.nextConf < 20) (hk' : c'.st.nextConf < 20)
    (hb : c.buf = c'.buf) (hc : c.st.connected = c'.st.connected) (hm : c.st.mqttApi = c'.st.mqttApi)
    (hf : c.st.future = c'.st.future) (xs ys : List DaemonStep) (hx : OnlyConnected c.st.connected xs) (hs : Resynced xs ys)
    (l l' : List (Eff MqttEff)) (hl : Timeless ((daemonRun u loads now xs c).2.flatMap (·.1)) l)
    (hl' : Timeless ((daemonRun u loads now' ys c').2.flatMap (·.1)) l') : SameOrders l l' := by
  obtain ⟨d, h, -⟩ := (C104_daemon u loads now hnow c hk xs hx _ _).1 rfl
  obtain ⟨d', h', -⟩ := (C104_daemon u loads now' hnow' c' hk' ys (resynced_connected hs _ (hc ▸ hx)) _ _).1 rfl
  exact lives_timeless hnow' hs ⟨hc, hm, hf, hb⟩ h h' _ _ hl hl'

/-- A time signal between two messages: the codes differ, and the line with the time is added. -/
example :
    let c : Conn Client := ⟨[], { connected := true, mqttApi := true }⟩
    let load : Bytes → Option JVal := fun _ => some (.obj [("state".toList, .str "ON".toList)])
    let on7 : DaemonStep := .message "homeassistant/light/cbus_7/set".toList []
    ((daemonRun .ascii load (fun _ => someTime) [.tick, on7] c).2.flatMap (·.1)).drop 1 =
      [.write (ascii "\\053800790743i\r"), .ext (stateMessage 7 true (.int 255) 0 none), .ext (sensorMessage 7 true)] ∧
    (daemonRun .ascii load (fun _ => someTime) [on7] c).2.flatMap (·.1) =
      [.write (ascii "\\053800790743h\r"), .ext (stateMessage 7 true (.int 255) 0 none), .ext (sensorMessage 7 true)] := by
  decide +kernel

example (on7 : DaemonStep) : Resynced [.tick, on7] [on7] := .without _ _ (.same _ _ _ .nil)

/-- Another level is another order. -/
example : ¬ SameOrder (.ext (sensorMessage 7 true)) (.ext (sensorMessage 7 false)) := by
  intro h
  generalize hx : Eff.ext (sensorMessage 7 true) = x at h
  generalize hy : Eff.ext (sensorMessage 7 false) = y at h
  cases h with
  | same => rw [← hy] at hx; revert hx; decide
  | code => cases hx

end CBus.Props
