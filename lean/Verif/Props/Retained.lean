import Verif.Props.Outlet
import Verif.Spec.Retained

/-! # C129: connecting to the broker moves no light -/

namespace CBus.Props
open CBus CBus.Spec

/-- A broker and a daemon: the daemon, the topics that it has subscribed to while it is connected, and
what the broker keeps. -/
structure Hub where
  daemon : Conn Client
  asked : List Str
  keep : List (Str × Bytes)

section
variable (u : UniTable) (loads : Bytes → Option JVal) (now : Nat → PyDateTime) (text : MqttPayload → Bytes)

/-- Steps of the daemon, one after the other: what it does to the broker's store and what it writes to the PCI. -/
def Hub.steps (h : Hub) (xs : List DaemonStep) : Hub × List Bytes :=
  let r := daemonRun u loads now xs h.daemon
  let o := r.2.flatMap (·.1)
  (⟨r.1, h.asked ++ topicsAsked o, keepEffects text o h.keep⟩, writesOf o)

/-- What happens, and what the daemon writes to the PCI then. The messages that the broker has kept
reach a client that subscribes to their topics; cmqttd.py:129-171 does not look at their retain flag. -/
def Hub.step (h : Hub) : Affair → Hub × List Bytes
  | .other t p k =>
    let r := h.steps u loads now text (if t ∈ h.asked then [.message t p] else [])
    (if k then { r.1 with keep := keepMessage t p r.1.keep } else r.1, r.2)
  | .connects labels =>
    let r := ({ h with asked := [] } : Hub).steps u loads now text [.broker labels]
    let r' := r.1.steps u loads now text ((h.keep.filter fun x => x.1 ∈ r.1.asked).map fun x => .message x.1 x.2)
    (r'.1, r.2 ++ r'.2)
  | .leaves => ({ h with asked := [] }, [])
  | .made => h.steps u loads now text [.made]
  | .lost => h.steps u loads now text [.lost]
  | .receive d => h.steps u loads now text [.receive d]
  | .tick => h.steps u loads now text [.tick]

/-- One affair after the other. -/
def Hub.run (h : Hub) : List Affair → Hub
  | [] => h
  | a :: as => (h.step u loads now text a).1.run as
end

/-- The claim: at no time does the daemon write anything to the network because it connects to the broker. -/
def C129_claim : Prop :=
  ∀ (u : UniTable) (loads : Bytes → Option JVal) (now : Nat → PyDateTime) (text : MqttPayload → Bytes) (c : Conn Client)
    (as : List Affair) (labels : List (Int × Str)),
    ((Hub.run u loads now text ⟨c, [], []⟩ as).step u loads now text (.connects labels)).2 = []

/-- Nothing that is kept is on a topic that ends with `/set`. -/
def NoSetKept (keep : List (Str × Bytes)) : Prop := ∀ x ∈ keep, ¬ "/set".toList <:+ x.1

theorem keepMessage_noSet {t : Str} {p : Bytes} {keep : List (Str × Bytes)} (h : NoSetKept keep)
    (ht : ¬ "/set".toList <:+ t) : NoSetKept (keepMessage t p keep) := by
  intro x hx
  rcases List.mem_append.1 hx with hx | hx
  · exact h x (List.mem_filter.1 hx).1
  · split at hx
    · cases hx
    · cases List.mem_singleton.1 hx; exact ht

theorem keepEffects_noSet {text : MqttPayload → Bytes} {o : List (Eff MqttEff)} (ho : NoSet o) :
    ∀ {keep : List (Str × Bytes)}, NoSetKept keep → NoSetKept (keepEffects text o keep) := by
  induction o with
  | nil => exact fun h => h
  | cons x o ih =>
    intro keep h
    have ih' := @ih fun t p q r hm => ho t p q r (List.mem_cons_of_mem _ hm)
    unfold keepEffects
    rw [List.foldl_cons]
    refine ih' ?_
    split
    · exact keepMessage_noSet h (ho _ _ _ _ List.mem_cons_self)
    · exact h

theorem pciReset_silent : Silent Client.pciReset := by
  unfold Client.pciReset
  refine Keeps.andThen noSet_rel (send_silent _ _) fun _ => Keeps.andThen noSet_rel (send_silent _ _) fun _ =>
    Keeps.andThen noSet_rel (send_silent _ _) fun _ => Keeps.andThen noSet_rel (send_silent _ _) fun _ =>
    Keeps.andThen noSet_rel (send_silent _ _) fun _ => Keeps.andThen noSet_rel (send_silent _ _) fun _ =>
    Keeps.pure noSet_rel ()

theorem connectionMade_silent : Silent Client.connectionMade := by
  unfold Client.connectionMade
  refine Keeps.andThen noSet_rel (fun s t p q r h => by cases h) fun _ => Keeps.andThen noSet_rel pciReset_silent fun _ => ?_
  apply silent_of_writes
  intro s x hx y hy
  subst hy
  split at hx <;> simp at hx

theorem daemonDo_noSet (u : UniTable) (loads : Bytes → Option JVal) (now : Nat → PyDateTime) (x : DaemonStep)
    (c : Conn Client) : NoSet (daemonDo u loads now x c).2.1 := by
  cases x with
  | made => exact connectionMade_silent c.st
  | lost =>
    have h : (daemonDo u loads now .lost c).2.1 = [] := by
      show (Client.connectionLost c.st).2.1 = []
      unfold Client.connectionLost
      split <;> rfl
    rw [h]
    intro t p q r h
    cases h
  | receive d => exact dataReceived_noSet now d c
  | tick => exact Keeps.andThen noSet_rel (clockDatetime_silent now none) (fun _ => Keeps.pure noSet_rel ()) c.st
  | broker labels =>
    have h := onConnect_noSet labels c.st
    simp only [daemonDo, daemonDo.onState]
    exact h
  | message t p => exact onMessage_silent u loads t p c.st

theorem daemonRun_noSet (u : UniTable) (loads : Bytes → Option JVal) (now : Nat → PyDateTime) (xs : List DaemonStep) :
    ∀ c : Conn Client, NoSet ((daemonRun u loads now xs c).2.flatMap (·.1)) := by
  induction xs with
  | nil => intro c t p q r h; cases h
  | cons x xs ih =>
    intro c t p q r h
    simp only [daemonRun, List.flatMap_cons, List.mem_append] at h
    rcases h with h | h
    · exact daemonDo_noSet u loads now x c t p q r h
    · exact ih _ t p q r h

theorem steps_noSet {u : UniTable} {loads : Bytes → Option JVal} {now : Nat → PyDateTime} {text : MqttPayload → Bytes} {h : Hub}
    (hn : NoSetKept h.keep) (xs : List DaemonStep) : NoSetKept (h.steps u loads now text xs).1.keep :=
  keepEffects_noSet (daemonRun_noSet u loads now xs h.daemon) hn

/-- An affair that keeps no message on a set topic at the broker. -/
def Fleeting : Affair → Prop
  | .other t _ true => ¬ "/set".toList <:+ t
  | _ => True

theorem step_noSet {u : UniTable} {loads : Bytes → Option JVal} {now : Nat → PyDateTime} {text : MqttPayload → Bytes} {h : Hub}
    (hn : NoSetKept h.keep) (a : Affair) (ha : Fleeting a) : NoSetKept (h.step u loads now text a).1.keep := by
  cases a with
  | other t p k =>
    unfold Hub.step
    cases k with
    | false => exact steps_noSet hn _
    | true => exact keepMessage_noSet (steps_noSet hn _) ha
  | connects labels =>
    simp only [Hub.step]
    have h1 := @steps_noSet u loads now text { h with asked := [] } hn [.broker labels]
    generalize Hub.steps u loads now text { h with asked := [] } [.broker labels] = r at h1 ⊢
    exact steps_noSet h1 _
  | leaves => exact hn
  | made => exact steps_noSet hn _
  | lost => exact steps_noSet hn _
  | receive d => exact steps_noSet hn _
  | tick => exact steps_noSet hn _

theorem run_noSet {u : UniTable} {loads : Bytes → Option JVal} {now : Nat → PyDateTime} {text : MqttPayload → Bytes}
    (as : List Affair) : ∀ {h : Hub}, NoSetKept h.keep → (∀ a ∈ as, Fleeting a) → NoSetKept (h.run u loads now text as).keep := by
  induction as with
  | nil => exact fun h _ => h
  | cons a as ih => exact fun h ha => ih (step_noSet h a (ha a List.mem_cons_self)) fun b hb => ha b (List.mem_cons_of_mem _ hb)

/-- The topics of the commands for the 256 groups. -/
def setTopics : List Str := groupAddresses.map fun ga => (topicText .lightSet ga).toList

theorem set_suffix {t : Str} (h : t ∈ setTopics) : "/set".toList <:+ t := by
  obtain ⟨ga, _, rfl⟩ := List.mem_map.1 h
  exact topic_suffix .lightSet ga

theorem broker_does (u : UniTable) (loads : Bytes → Option JVal) (now : Nat → PyDateTime) (labels : List (Int × Str))
    (c : Conn Client) : ∃ o, Announces labels o ∧ daemonDo u loads now (.broker labels) c =
      (⟨c.buf, { c.st with mqttApi := true }⟩, o.map .ext, .ok ()) := by
  refine ⟨_, (announces_iff labels _).2 rfl, ?_⟩
  simp only [daemonDo, daemonDo.onState, C66_connect]
  rfl

theorem announces_topics {labels : List (Int × Str)} {o : List MqttEff} (h : Announces labels o) :
    topicsAsked (o.map Eff.ext) = setTopics := by
  cases h with
  | all v o hv hc =>
    have : topicsAsked (o.map Eff.ext) = [] := by
      clear hv
      generalize groupAddresses = gas at hc
      induction hc with
      | nil => rfl
      | cons ga gas v w o _ _ _ ih => simpa [topicsAsked] using ih
    simp only [topicsAsked, List.map_cons, List.flatMap_cons] at this ⊢
    rw [this]
    simp [setTopics]

theorem writes_none (o : List MqttEff) : writesOf (o.map (Eff.ext (π := MqttEff))) = [] := by
  simp [writesOf, List.filterMap_map, Function.comp_def]

/-- What connecting to the broker makes the daemon write to the network: the commands that the messages
which the broker has kept on the set topics ask for, as if they were sent now. -/
theorem C129_exactly (u : UniTable) (loads : Bytes → Option JVal) (now : Nat → PyDateTime)
    (text : MqttPayload → Bytes) (h : Hub) (labels : List (Int × Str)) :
    (h.step u loads now text (.connects labels)).2 =
      writesOf ((daemonRun u loads now ((h.keep.filter fun x => x.1 ∈ setTopics).map fun x => .message x.1 x.2)
        ⟨h.daemon.buf, { h.daemon.st with mqttApi := true }⟩).2.flatMap (·.1)) := by
  obtain ⟨o, h1, h2⟩ := broker_does u loads now labels h.daemon
  have hs : Hub.steps u loads now text { h with asked := [] } [.broker labels] =
      (⟨⟨h.daemon.buf, { h.daemon.st with mqttApi := true }⟩, setTopics, keepEffects text (o.map .ext) h.keep⟩, []) := by
    simp only [Hub.steps, daemonRun, h2, List.flatMap_cons, List.flatMap_nil, List.append_nil, announces_topics h1,
      List.nil_append, writes_none]
  simp only [Hub.step, hs]
  simp only [Hub.steps, List.nil_append]

/-- C129 as far as it holds: if nobody else leaves a message on a set topic at the broker. What the daemon
itself leaves there never does. -/
theorem C129_partial (u : UniTable) (loads : Bytes → Option JVal) (now : Nat → PyDateTime)
    (text : MqttPayload → Bytes) (c : Conn Client) (as : List Affair) (ha : ∀ a ∈ as, Fleeting a) (labels : List (Int × Str)) :
    ((Hub.run u loads now text ⟨c, [], []⟩ as).step u loads now text (.connects labels)).2 = [] := by
  rw [C129_exactly u loads now text _ labels]
  have h0 : NoSetKept (Hub.mk c [] []).keep := by intro x hx; cases hx
  have hn := run_noSet (u := u) (loads := loads) (now := now) (text := text) as h0 ha
  generalize Hub.run u loads now text ⟨c, [], []⟩ as = h at hn ⊢
  have hf : (h.keep.filter fun x => x.1 ∈ setTopics) = [] := by
    apply List.filter_eq_nil_iff.2
    intro x hx hd
    exact hn x hx (set_suffix (of_decide_eq_true hd))
  rw [hf]
  rfl

/-- The messages on set topics that are kept. -/
def standing (keep : List (Str × Bytes)) : List (Str × Bytes) := keep.filter fun x => x.1 ∈ setTopics

theorem keepMessage_standing {t : Str} {p : Bytes} {keep : List (Str × Bytes)} (ht : ¬ "/set".toList <:+ t) :
    standing (keepMessage t p keep) = standing keep := by
  have hn : t ∉ setTopics := fun h => ht (set_suffix h)
  have h1 : standing (if p = [] then [] else [(t, p)]) = [] := by
    split
    · rfl
    · simp [standing, hn]
  unfold standing keepMessage at *
  rw [List.filter_append, h1, List.append_nil, List.filter_filter]
  apply List.filter_congr
  intro x _
  by_cases hx : x.1 = t
  · simp [hx, hn]
  · simp [hx]

theorem keepEffects_standing {text : MqttPayload → Bytes} {o : List (Eff MqttEff)} (ho : NoSet o) :
    ∀ keep : List (Str × Bytes), standing (keepEffects text o keep) = standing keep := by
  induction o with
  | nil => exact fun _ => rfl
  | cons x o ih =>
    intro keep
    have ih' := ih fun t p q r hm => ho t p q r (List.mem_cons_of_mem _ hm)
    unfold keepEffects at *
    rw [List.foldl_cons, ih']
    split
    · exact keepMessage_standing (ho _ _ _ _ List.mem_cons_self)
    · rfl

theorem steps_standing (u : UniTable) (loads : Bytes → Option JVal) (now : Nat → PyDateTime) (text : MqttPayload → Bytes) (h : Hub)
    (xs : List DaemonStep) : standing (h.steps u loads now text xs).1.keep = standing h.keep :=
  keepEffects_standing (daemonRun_noSet u loads now xs h.daemon) _

theorem step_standing (u : UniTable) (loads : Bytes → Option JVal) (now : Nat → PyDateTime) (text : MqttPayload → Bytes) (h : Hub)
    (a : Affair) (ha : Fleeting a) : standing (h.step u loads now text a).1.keep = standing h.keep := by
  cases a with
  | other t p k =>
    unfold Hub.step
    cases k with
    | false => exact steps_standing ..
    | true => exact (keepMessage_standing ha).trans (steps_standing ..)
  | connects labels =>
    simp only [Hub.step]
    have h1 := steps_standing u loads now text { h with asked := [] } [.broker labels]
    generalize Hub.steps u loads now text { h with asked := [] } [.broker labels] = r at h1 ⊢
    exact (steps_standing ..).trans h1
  | leaves => rfl
  | made => exact steps_standing ..
  | lost => exact steps_standing ..
  | receive d => exact steps_standing ..
  | tick => exact steps_standing ..

/-- A message that was left on a set topic stays there, and is carried out at every connection that is made
later, until someone leaves another there: whatever happens in between, the messages that C129_exactly speaks
of are the same. -/
theorem C129_again (u : UniTable) (loads : Bytes → Option JVal) (now : Nat → PyDateTime) (text : MqttPayload → Bytes)
    (as : List Affair) (ha : ∀ a ∈ as, Fleeting a) (h : Hub) :
    ((h.run u loads now text as).keep.filter fun x => x.1 ∈ setTopics) = h.keep.filter fun x => x.1 ∈ setTopics := by
  show standing _ = standing _
  induction as generalizing h with
  | nil => rfl
  | cons a as ih =>
    rw [Hub.run, ih (fun b hb => ha b (List.mem_cons_of_mem _ hb)), step_standing u loads now text h a (ha a List.mem_cons_self)]

/-- Someone leaves "off" on the set topic of group 7. -/
def leftBehind : Affair := .other "homeassistant/light/cbus_7/set".toList (Json.utf8 "{\"state\": \"off\"}".toList) true

theorem kept_again (c : Conn Client) (keep : List (Str × Bytes)) (labels : List (Int × Str))
    (hkeep : keep = [("homeassistant/light/cbus_7/set".toList, Json.utf8 "{\"state\": \"off\"}".toList)])
    (hc : c = ⟨[], { connected := true }⟩) :
    (Hub.step .ascii (CBus.Json.loads exampleEnv) (fun _ => someTime) (fun _ => [0x7b]) ⟨c, [], keep⟩ (.connects labels)).2 =
      [ascii "\\0538000107BBh\r"] := by
  rw [C129_exactly]
  subst hkeep hc
  have hf : ([(("homeassistant/light/cbus_7/set".toList : Str), Json.utf8 "{\"state\": \"off\"}".toList)].filter
      fun x => x.1 ∈ setTopics) = [("homeassistant/light/cbus_7/set".toList, Json.utf8 "{\"state\": \"off\"}".toList)] := by
    decide +kernel
  rw [hf]
  decide +kernel

/-- It is false: what someone has left at the broker is carried out whenever the daemon connects to it. -/
theorem C129_false : ¬ C129_claim := by
  intro h
  have h1 := h .ascii (CBus.Json.loads exampleEnv) (fun _ => someTime) (fun _ => [0x7b]) ⟨[], { connected := true }⟩ [leftBehind] []
  have h2 : Hub.run .ascii (CBus.Json.loads exampleEnv) (fun _ => someTime) (fun _ => [0x7b])
      ⟨⟨[], { connected := true }⟩, [], []⟩ [leftBehind] = ⟨⟨[], { connected := true }⟩, [],
        [("homeassistant/light/cbus_7/set".toList, Json.utf8 "{\"state\": \"off\"}".toList)]⟩ := by
    simp [Hub.run, Hub.step, Hub.steps, leftBehind, daemonRun, topicsAsked, keepEffects, keepMessage]
    decide +kernel
  rw [h2, kept_again _ _ _ rfl rfl] at h1
  cases h1

end CBus.Props
