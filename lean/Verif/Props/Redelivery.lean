import Verif.Props.Memory
import Verif.Spec.Redelivery

/-! # C148: messages that are delivered more than once -/

namespace CBus.Props
open CBus CBus.Spec

theorem last_append {α : Type} (a b : List α) : (a ++ b).getLast? = b.getLast?.or a.getLast? := by
  rw [List.getLast?_append]

/-- The last thing that comes of messages is the same, however often they are delivered. -/
theorem arrives_last {α β : Type} (f : α → List β) (xs : List α) (n : Nat) (ys : List α) (h : Arrives xs n ys) :
    (ys.flatMap f).getLast?.or ((xs.take n).flatMap f).getLast? = (xs.flatMap f).getLast? ∧
      (ys.flatMap f = [] → (xs.drop n).flatMap f = []) := by
  induction h with
  | done => simp
  | next n x ys h _ ih =>
    obtain ⟨hn, hx⟩ := List.getElem?_eq_some_iff.1 h
    have e1 : xs.take (n + 1) = xs.take n ++ [x] := by rw [List.take_succ, h]; rfl
    have e2 : xs.drop n = x :: xs.drop (n + 1) := by rw [List.drop_eq_getElem_cons hn, hx]
    rw [e1, List.flatMap_append, last_append] at ih
    rw [e2, List.flatMap_cons, List.flatMap_cons, last_append]
    refine ⟨?_, ?_⟩
    · rw [← ih.1]
      simp only [List.flatMap_cons, List.flatMap_nil, List.append_nil]
      cases (ys.flatMap f).getLast? <;> simp
    · intro hh
      obtain ⟨h1, h2⟩ := List.append_eq_nil_iff.1 hh
      rw [h1, ih.2 h2]
      rfl
  | again n m ys h _ ih =>
    obtain ⟨i1, i2⟩ := ih
    have drops : xs.drop n = (xs.drop m).drop (n - m) := by rw [List.drop_drop]; congr 1; omega
    have hd : ys.flatMap f = [] → (xs.drop n).flatMap f = [] := by
      intro hy
      have := i2 hy
      rw [List.flatMap_eq_nil_iff] at this ⊢
      intro x hx
      rw [drops] at hx
      exact this x (List.mem_of_mem_drop hx)
    refine ⟨?_, hd⟩
    cases hl : (ys.flatMap f).getLast? with
    | some z => rw [hl] at i1; rw [← i1]; rfl
    | none =>
      have hy := List.getLast?_eq_none_iff.1 hl
      have e : xs.flatMap f = (xs.take n).flatMap f ++ (xs.drop n).flatMap f := by
        rw [← List.flatMap_append, List.take_append_drop]
      rw [e, hd hy, List.append_nil]
      rfl

/-- The daemon gets messages. -/
def delivered (ms : List (Str × Bytes)) : List DaemonStep := ms.map fun m => .message m.1 m.2

/-- What comes of each message does not depend on the others. -/
theorem messages_alone (u : UniTable) (loads : Bytes → Option JVal) (now : Nat → PyDateTime) (hnow : ∀ n, DateTimeOk (now n)) :
    ∃ (deed : Str × Bytes → List (UInt8 × Order)) (said : Str × Bytes → List MqttEff),
      ∀ (ms : List (Str × Bytes)) (c : Conn Client), Ready c →
        let rs := (daemonRun u loads now (delivered ms) c).2
        Carry (rs.flatMap (writesOf ·.1)) (ms.flatMap deed) ∧ rs.flatMap (messagesOf ·.1) = ms.flatMap said := by
  have one : ∀ (c : Conn Client), Ready c → ∀ m : Str × Bytes,
      Ready (daemonDo u loads now (.message m.1 m.2) c).1 ∧
        ∃ xs, Carry (writesOf (daemonDo u loads now (.message m.1 m.2) c).2.1) xs := by
    intro c hr m
    obtain ⟨c', o, r, h⟩ := split3 (daemonDo u loads now (.message m.1 m.2) c)
    obtain ⟨h1, h2⟩ := street_message u loads now hnow c hr m.1 m.2 _ _ _ h
    rw [h]
    refine ⟨h1, ?_⟩
    rcases h2 with ⟨hw, -⟩ | ⟨ga, order, line, -, hw, ho, -⟩
    · exact ⟨[], by rw [hw]; exact .nil⟩
    · exact ⟨[(byteOf ga, order)], by rw [hw]; exact .cons _ _ _ _ ho .nil⟩
  have choice : ∃ deed : Str × Bytes → List (UInt8 × Order), ∀ m,
      Carry (writesOf (daemonDo u loads now (.message m.1 m.2) readyDaemon).2.1) (deed m) :=
    ⟨fun m => (one readyDaemon readyDaemon_ready m).2.choose, fun m => (one readyDaemon readyDaemon_ready m).2.choose_spec⟩
  obtain ⟨deed, hd⟩ := choice
  refine ⟨deed, fun m => messagesOf (daemonDo u loads now (.message m.1 m.2) readyDaemon).2.1, ?_⟩
  intro ms
  induction ms with
  | nil => exact fun c _ => ⟨.nil, rfl⟩
  | cons m ms ih =>
    intro c hr
    obtain ⟨h1, xs, h2⟩ := one c hr m
    obtain ⟨i1, i2⟩ := ih _ h1
    have hs := (C141_message u loads now hnow c readyDaemon hr.1.2 readyDaemon_ready.1.2
      (hr.1.1.trans readyDaemon_ready.1.1.symm) m.1 m.2).1
    have hx : xs = deed m := sameDeeds_carry hs h2 (hd m)
    show Carry (writesOf (daemonDo u loads now (.message m.1 m.2) c).2.1 ++ _) (deed m ++ _) ∧
      messagesOf (daemonDo u loads now (.message m.1 m.2) c).2.1 ++ _ = messagesOf _ ++ _
    refine ⟨?_, ?_⟩
    · have app : ∀ {ls ls' : List Bytes} {xs xs' : List (UInt8 × Order)}, Carry ls xs → Carry ls' xs' →
          Carry (ls ++ ls') (xs ++ xs') := by
        intro ls ls' xs xs' h h'
        induction h with
        | nil => exact h'
        | cons line x ls xs hl _ ih => exact .cons line x _ _ hl ih
      exact app (hx ▸ h2) i1
    · rw [sameDeeds_messages hs]
      congr 1

/-- C148: messages that are delivered at least once, with repetitions as MQTT allows them, leave the lights
at the same levels as messages that are delivered exactly once, and the broker with the same messages on all topics;
whatever the messages are, and whatever the daemon has done before. -/
theorem C148_redelivered (u : UniTable) (loads : Bytes → Option JVal) (now : Nat → PyDateTime) (hnow : ∀ n, DateTimeOk (now n))
    (xs ys : List (Str × Bytes)) (ha : Arrives xs 0 ys) (c c' : Conn Client) (hr : Ready c) (hr' : Ready c') :
    let once := (daemonRun u loads now (delivered xs) c).2
    let more := (daemonRun u loads now (delivered ys) c').2
    (∃ os os', Carry (once.flatMap (writesOf ·.1)) os ∧ Carry (more.flatMap (writesOf ·.1)) os' ∧
      ∀ g, lastFor g os' = lastFor g os) ∧
    ∀ topic, keptOn topic (more.flatMap (messagesOf ·.1)) = keptOn topic (once.flatMap (messagesOf ·.1)) := by
  obtain ⟨deed, said, h⟩ := messages_alone u loads now hnow
  have hx := h xs c hr
  have hy := h ys c' hr'
  refine ⟨⟨_, _, hx.1, hy.1, fun g => ?_⟩, fun topic => ?_⟩
  · have := (arrives_last (fun m => (deed m).filter (·.1 = g)) xs 0 ys ha).1
    unfold lastFor
    rw [List.filter_flatMap, List.filter_flatMap, ← this]
    simp
  · have := (arrives_last (fun m => (said m).filterMap (Hass.onTopic topic)) xs 0 ys ha).1
    unfold keptOn
    show ((List.flatMap _ (daemonRun u loads now (delivered ys) c').2).filterMap _).getLast? = _
    rw [hy.2, hx.2, List.filterMap_flatMap, List.filterMap_flatMap, ← this]
    simp

/-- Light 7 is switched on and off; both messages come twice. -/
example :
    let on : Str × Bytes := ("homeassistant/light/cbus_7/set".toList, Json.utf8 "{\"state\": \"on\"}".toList)
    let off : Str × Bytes := ("homeassistant/light/cbus_7/set".toList, Json.utf8 "{\"state\": \"off\"}".toList)
    Arrives [on, off] 0 [on, off, on, off] ∧
    (daemonRun .ascii (CBus.Json.loads exampleEnv) (fun _ => someTime) (delivered [on, off, on, off]) readyDaemon).2.flatMap
      (writesOf ·.1) = [ascii "\\053800790743h\r", ascii "\\0538000107BBi\r", ascii "\\053800790743j\r", ascii "\\0538000107BBk\r"] := by
  refine ⟨.next 0 _ _ rfl (.next 1 _ _ rfl (.again 2 0 _ (by decide) (.next 0 _ _ rfl (.next 1 _ _ rfl .done)))), ?_⟩
  decide +kernel

end CBus.Props
