import Verif.Props.Retained

/-! # C163: the names of the last start -/

namespace CBus.Props
open CBus CBus.Spec

/-- What a client that subscribes to a topic now is told first. -/
def toldOn (topic : Str) (keep : List (Str × Bytes)) : List Bytes := (keep.filter fun x => x.1 = topic).map (·.2)

/-- Messages are published on topics of states only. -/
def OnlyStates (o : List (Eff MqttEff)) : Prop :=
  ∀ t p q r, Eff.ext (.publish t p q r) ∈ o → "/state".toList <:+ t

theorem eventMessages_onlyStates (e : Event) : OnlyStates ((eventMessages e).map .ext) := by
  intro t p q r h
  simp only [List.mem_map, Eff.ext.injEq, exists_eq_right] at h
  have pair : ∀ ga on l d src on', (MqttEff.publish t p q r) ∈ [stateMessage ga on l d src, sensorMessage ga on'] →
      "/state".toList <:+ t := by
    intro ga on l d src on' h
    simp only [List.mem_cons, List.not_mem_nil, or_false, stateMessage, sensorMessage, MqttEff.publish.injEq] at h
    rcases h with h | h
    · rw [h.1]; exact (topic_suffix .lightState ga)
    · rw [h.1]; exact (topic_suffix .sensorState ga)
  cases e with
  | lightingOn src ga => exact pair _ _ _ _ _ _ h
  | lightingOff src ga => exact pair _ _ _ _ _ _ h
  | lightingRamp src ga d l => exact pair _ _ _ _ _ _ h
  | _ => simp [eventMessages] at h

theorem onlyStates_rel : TraceRel (σ := Client) fun _ o _ => OnlyStates o where
  nil := fun _ _ _ _ _ h => by simp at h
  append := fun h1 h2 t p q r h => by
    rcases List.mem_append.1 h with h | h
    · exact h1 t p q r h
    · exact h2 t p q r h

/-- A method that publishes nothing but states. -/
def StatesOnly {α : Type} (m : Proc Client (Eff MqttEff) α) : Prop := Keeps (fun _ o _ => OnlyStates o) m

theorem states_of_writes {α : Type} {m : Proc Client (Eff MqttEff) α}
    (h : ∀ s, ∀ x ∈ (m s).2.1, ∀ y, x ≠ .ext y) : StatesOnly m := by
  intro s t p q r hm
  exact absurd rfl (h s _ hm _)

theorem send_states (p : Packet) (b : Bool) : StatesOnly (Client.send p b) := by
  apply states_of_writes
  intro s x hx y hy
  subst hy
  unfold Client.send Proc.andThen Client.getConfirmationCode at hx
  repeat' split at hx
  all_goals first | (simp at hx; done) | skip
  all_goals (rename_i h; split at h <;> simp_all)

theorem sendSals_states (x : Py (List SAL)) : StatesOnly (Client.sendSals x) := by
  intro s
  unfold Client.sendSals
  repeat' split
  · exact onlyStates_rel.nil s
  · exact onlyStates_rel.nil s
  · exact send_states _ _ s

theorem clockDatetime_states (now : Nat → PyDateTime) (w : Option PyDateTime) : StatesOnly (Client.clockDatetime now w) := by
  intro s
  unfold Client.clockDatetime
  split
  · exact sendSals_states _ _
  · exact sendSals_states _ { s with clockReads := s.clockReads + 1 }

theorem lightingMany_states (mk : Int → Py SAL) (gas : List Int) : StatesOnly (Client.lightingMany mk gas) := by
  intro s
  unfold Client.lightingMany
  split
  · exact onlyStates_rel.nil s
  · exact sendSals_states _ s

theorem publish_states (e : Event) {m : Mqtt.Act} (h : ∀ s, m s = (s, (eventMessages e).map .ext, .ok ())) : StatesOnly m := by
  intro s
  rw [h s]
  exact eventMessages_onlyStates e

theorem cbusHook_states (now : Nat → PyDateTime) (e : Event) : StatesOnly (Mqtt.cbusHook now e) := by
  by_cases he : ∀ src, e ≠ .clockRequest src
  · intro s
    rw [C62_event now e he s]
    show OnlyStates (if _ then _ else _)
    split
    · exact eventMessages_onlyStates e
    · exact onlyStates_rel.nil s
  · simp only [Classical.not_forall, Classical.not_not] at he
    obtain ⟨src, rfl⟩ := he
    exact Keeps.andThen onlyStates_rel (clockDatetime_states now none) fun _ => Keeps.pure onlyStates_rel ()

theorem onMessage_states (u : UniTable) (loads : Bytes → Option JVal) (topic : Str) (payload : Bytes) :
    StatesOnly (Mqtt.onMessage u loads topic payload) := by
  have act : ∀ ga on b t, StatesOnly (Mqtt.actOnPayload ga on b t) := by
    intro ga on b t
    unfold Mqtt.actOnPayload
    repeat' split
    · exact Keeps.andThen onlyStates_rel (lightingMany_states _ _) fun _ => publish_states _ (publish_on none ga)
    · exact Keeps.andThen onlyStates_rel (sendSals_states _) fun _ => publish_states _ (publish_ramp none ga t b)
    · exact Keeps.andThen onlyStates_rel (lightingMany_states _ _) fun _ => publish_states _ (publish_off none ga)
  unfold Mqtt.onMessage
  repeat' split
  all_goals first
    | exact act _ _ _ _
    | exact Keeps.pure onlyStates_rel ()
    | exact fun s => onlyStates_rel.nil s

theorem dataReceived_onlyStates (now : Nat → PyDateTime) (d : Bytes) (c : Conn Client) :
    OnlyStates (Client.dataReceived (Mqtt.cbusHook now) d c).2.1 := by
  have hcall : ∀ e, StatesOnly (Client.call (Mqtt.cbusHook now) e) := fun e =>
    Keeps.andThen onlyStates_rel (fun s t p q r h => by simp [Proc.emit] at h) fun _ => cbusHook_states now e
  have hsal : ∀ src x, StatesOnly (Client.onSal (Mqtt.cbusHook now) src x) := by
    intro src x
    cases x <;> first | exact hcall _ | exact Keeps.pure onlyStates_rel ()
  have hsals : ∀ src l, StatesOnly (Client.onSals (Mqtt.cbusHook now) src l) := by
    intro src l
    induction l with
    | nil => exact Keeps.pure onlyStates_rel ()
    | cons x l ih => exact Keeps.andThen onlyStates_rel (hsal src x) fun _ => ih
  have hp : ∀ p, StatesOnly (Client.onPacket (Mqtt.cbusHook now) p) := by
    intro p
    cases p <;> first | exact hsals _ _ | exact hcall _ | exact Keeps.pure onlyStates_rel ()
  exact Keeps.dataReceived onlyStates_rel (fun b => Keeps.handleData onlyStates_rel (fun _ => Keeps.pure onlyStates_rel ()) hp b) _ d c

theorem pciReset_states : StatesOnly Client.pciReset := by
  unfold Client.pciReset
  refine Keeps.andThen onlyStates_rel (send_states _ _) fun _ => Keeps.andThen onlyStates_rel (send_states _ _) fun _ =>
    Keeps.andThen onlyStates_rel (send_states _ _) fun _ => Keeps.andThen onlyStates_rel (send_states _ _) fun _ =>
    Keeps.andThen onlyStates_rel (send_states _ _) fun _ => Keeps.andThen onlyStates_rel (send_states _ _) fun _ =>
    Keeps.pure onlyStates_rel ()

theorem connectionMade_states : StatesOnly Client.connectionMade := by
  unfold Client.connectionMade
  refine Keeps.andThen onlyStates_rel (fun s t p q r h => by cases h) fun _ => Keeps.andThen onlyStates_rel pciReset_states fun _ => ?_
  apply states_of_writes
  intro s x hx y hy
  subst hy
  split at hx <;> simp at hx

theorem daemonDo_onlyStates (u : UniTable) (loads : Bytes → Option JVal) (now : Nat → PyDateTime) (x : DaemonStep)
    (hx : ∀ l, x ≠ .broker l) (c : Conn Client) : OnlyStates (daemonDo u loads now x c).2.1 := by
  cases x with
  | made => exact connectionMade_states c.st
  | lost =>
    have h : (daemonDo u loads now .lost c).2.1 = [] := by
      show (Client.connectionLost c.st).2.1 = []
      unfold Client.connectionLost
      split <;> rfl
    rw [h]
    intro t p q r h
    cases h
  | receive d => exact dataReceived_onlyStates now d c
  | tick => exact Keeps.andThen onlyStates_rel (clockDatetime_states now none) (fun _ => Keeps.pure onlyStates_rel ()) c.st
  | broker labels => exact absurd rfl (hx labels)
  | message t p => exact onMessage_states u loads t p c.st

theorem daemonRun_onlyStates (u : UniTable) (loads : Bytes → Option JVal) (now : Nat → PyDateTime) (xs : List DaemonStep)
    (hx : ∀ x ∈ xs, ∀ l, x ≠ .broker l) : ∀ c : Conn Client, OnlyStates ((daemonRun u loads now xs c).2.flatMap (·.1)) := by
  induction xs with
  | nil => intro c t p q r h; cases h
  | cons x xs ih =>
    intro c t p q r h
    simp only [daemonRun, List.flatMap_cons, List.mem_append] at h
    rcases h with h | h
    · exact daemonDo_onlyStates u loads now x (hx x List.mem_cons_self) c t p q r h
    · exact ih (fun y hy => hx y (List.mem_cons_of_mem _ hy)) _ t p q r h

theorem told_other {t t' : Str} (p : Bytes) (keep : List (Str × Bytes)) (h : t' ≠ t) : toldOn t (keepMessage t' p keep) = toldOn t keep := by
  have h1 : (if p = [] then [] else [(t', p)]).filter (fun x => decide (x.1 = t)) = [] := by
    split
    · rfl
    · simp [h]
  unfold toldOn keepMessage
  rw [List.filter_append, h1, List.append_nil, List.filter_filter]
  congr 1
  apply List.filter_congr
  intro x _
  by_cases hx : x.1 = t
  · simp [hx, Ne.symm h]
  · simp [hx]

theorem told_same {t : Str} {p : Bytes} (keep : List (Str × Bytes)) (h : p ≠ []) : toldOn t (keepMessage t p keep) = [p] := by
  unfold toldOn keepMessage
  rw [List.filter_append, List.filter_filter, if_neg h]
  have : keep.filter (fun x => decide (x.1 = t) && decide (x.1 ≠ t)) = [] := by
    apply List.filter_eq_nil_iff.2
    intro x _
    simp
  rw [this]
  simp

theorem state_not_config {t : Str} (h : "/config".toList <:+ t) (h' : "/state".toList <:+ t) : False :=
  not_suffix h (by decide) (by decide) h'

theorem told_states {text : MqttPayload → Bytes} {o : List (Eff MqttEff)} (ho : OnlyStates o) {t : Str} (ht : "/config".toList <:+ t) :
    ∀ keep : List (Str × Bytes), toldOn t (keepEffects text o keep) = toldOn t keep := by
  induction o with
  | nil => exact fun _ => rfl
  | cons x o ih =>
    intro keep
    have ih' := ih fun t p q r hm => ho t p q r (List.mem_cons_of_mem _ hm)
    unfold keepEffects at *
    rw [List.foldl_cons, ih']
    split
    · refine told_other _ _ fun h => ?_
      subst h
      exact state_not_config ht (ho _ _ _ _ List.mem_cons_self)
    · rfl

theorem told_nothing (text : MqttPayload → Bytes) {t : Str} : ∀ (o : List MqttEff), o.filter (fun e => pubTopic e = some t) = [] →
    ∀ keep, toldOn t (keepEffects text (o.map .ext) keep) = toldOn t keep
  | [], _, _ => rfl
  | x :: o, h, keep => by
    rw [List.filter_cons] at h
    split at h
    · cases h
    · rename_i hx
      have ih := told_nothing text o h
      unfold keepEffects at ih ⊢
      rw [List.map_cons, List.foldl_cons, ih]
      split
      · rename_i t' p q e
        cases e
        refine told_other _ _ fun g => hx ?_
        simp [pubTopic, g]
      · rfl

theorem told_once (text : MqttPayload → Bytes) {t : Str} {p : MqttPayload} {q : Nat} (hp : text p ≠ []) :
    ∀ (o : List MqttEff), o.filter (fun e => pubTopic e = some t) = [.publish t p q true] →
    ∀ keep, toldOn t (keepEffects text (o.map .ext) keep) = [text p]
  | [], h, _ => by cases h
  | x :: o, h, keep => by
    rw [List.filter_cons] at h
    split at h
    · injection h with h1 h2
      subst h1
      have := told_nothing text o h2 (keepMessage t (text p) keep)
      unfold keepEffects at this ⊢
      rw [List.map_cons, List.foldl_cons, this]
      exact told_same keep hp
    · have ih := told_once text hp o h
      unfold keepEffects at ih ⊢
      rw [List.map_cons, List.foldl_cons]
      exact ih _

theorem told_steps (u : UniTable) (loads : Bytes → Option JVal) (now : Nat → PyDateTime) (text : MqttPayload → Bytes) (h : Hub)
    (xs : List DaemonStep) (hx : ∀ x ∈ xs, ∀ l, x ≠ .broker l) {t : Str} (ht : "/config".toList <:+ t) :
    toldOn t (h.steps u loads now text xs).1.keep = toldOn t h.keep :=
  told_states (daemonRun_onlyStates u loads now xs hx h.daemon) ht _

/-- An affair after which the names at the broker are still those of the daemon that was started with `labels`: nobody
else leaves anything on a topic for a configuration, and no daemon with other labels connects. -/
def KeepsNames (labels : List (Int × Str)) : Affair → Prop
  | .other t _ true => ¬ "/config".toList <:+ t
  | .connects l => l = labels
  | _ => True

theorem told_connects (u : UniTable) (loads : Bytes → Option JVal) (now : Nat → PyDateTime) (text : MqttPayload → Bytes) (h : Hub)
    (labels : List (Int × Str)) {t : Str} (ht : "/config".toList <:+ t) {p : MqttPayload} {q : Nat} (hp : text p ≠ [])
    (hf : (metaMessage :: groupAddresses.flatMap (configsOf labels)).filter (fun e => pubTopic e = some t) = [.publish t p q true]) :
    toldOn t (h.step u loads now text (.connects labels)).1.keep = [text p] := by
  have h1 : toldOn t (Hub.steps u loads now text { h with asked := [] } [.broker labels]).1.keep = [text p] := by
    simp only [Hub.steps, daemonRun, List.flatMap_cons, List.flatMap_nil, List.append_nil, daemonDo, daemonDo.onState, C66_connect]
    exact told_once text (q := q) hp (.subscribe (groupAddresses.map fun ga => ((topicText .lightSet ga).toList, 2)) ::
      (metaMessage :: groupAddresses.flatMap (configsOf labels))) (by
        rw [List.filter_cons, if_neg (by simp [pubTopic])]; exact hf) h.keep
  simp only [Hub.step]
  generalize Hub.steps u loads now text { h with asked := [] } [.broker labels] = r at h1 ⊢
  rw [told_steps _ _ _ _ _ _ (by
    intro x hx l e
    subst e
    simp at hx) ht]
  exact h1

theorem told_run (u : UniTable) (loads : Bytes → Option JVal) (now : Nat → PyDateTime) (text : MqttPayload → Bytes)
    (labels : List (Int × Str)) {t : Str} (ht : "/config".toList <:+ t) {p : MqttPayload} {q : Nat} (hp : text p ≠ [])
    (hf : (metaMessage :: groupAddresses.flatMap (configsOf labels)).filter (fun e => pubTopic e = some t) = [.publish t p q true])
    (as : List Affair) : ∀ (h : Hub), toldOn t h.keep = [text p] → (∀ a ∈ as, KeepsNames labels a) →
      toldOn t (h.run u loads now text as).keep = [text p] := by
  induction as with
  | nil => exact fun h hk _ => hk
  | cons a as ih =>
    intro h hk ha
    refine ih _ ?_ fun b hb => ha b (List.mem_cons_of_mem _ hb)
    have ha := ha a List.mem_cons_self
    have one : ∀ x : DaemonStep, (∀ l, x ≠ .broker l) → toldOn t (h.steps u loads now text [x]).1.keep = [text p] := by
      intro x hx
      rw [told_steps _ _ _ _ _ _ (by intro y hy; cases List.mem_singleton.1 hy; exact hx) ht, hk]
    cases a with
    | other t' p' k =>
      have h0 : toldOn t (h.steps u loads now text (if t' ∈ h.asked then [.message t' p'] else [])).1.keep = [text p] := by
        rw [told_steps _ _ _ _ _ _ (by
          intro y hy l e
          subst e
          split at hy <;> simp at hy) ht, hk]
      cases k with
      | false => exact h0
      | true =>
        refine (told_other _ _ fun e => ?_).trans h0
        subst e
        exact ha ht
    | connects l => cases ha; exact told_connects u loads now text h labels ht hp hf
    | leaves => exact hk
    | made => exact one _ (by simp)
    | lost => exact one _ (by simp)
    | receive d => exact one _ (by simp)
    | tick => exact one _ (by simp)

/-- C163: whatever was left at the broker before – by a daemon with other labels, say –, once the daemon has
connected, a client that asks for the configurations of a group, now or later, is told one of each kind,
and it is the one with the label that the daemon was started with. -/
theorem C163_names (u : UniTable) (loads : Bytes → Option JVal) (now : Nat → PyDateTime) (text : MqttPayload → Bytes)
    (htext : ∀ v, text (.json (.obj v)) ≠ []) (h : Hub) (labels : List (Int × Str)) (as : List Affair)
    (ha : ∀ a ∈ as, KeepsNames labels a) (ga : Int) (hg : ga ∈ groupAddresses) :
    (∃ v, toldOn (topicText .lightConfig ga).toList ((h.step u loads now text (.connects labels)).1.run u loads now text as).keep =
        [text (.json (.obj v))] ∧ IsLightConfig (lightName labels ga) ga v) ∧
    (∃ v, toldOn (topicText .sensorConfig ga).toList ((h.step u loads now text (.connects labels)).1.run u loads now text as).keep =
        [text (.json (.obj v))] ∧ IsSensorConfig (lightName labels ga) ga v) := by
  obtain ⟨⟨v, h1, h2⟩, ⟨w, h3, h4⟩⟩ := C66_announced labels ga hg
  have s1 : "/config".toList <:+ (topicText .lightConfig ga).toList := topic_suffix .lightConfig ga
  have s2 : "/config".toList <:+ (topicText .sensorConfig ga).toList := topic_suffix .sensorConfig ga
  exact ⟨⟨v, told_run u loads now text labels s1 (htext v) h1 as _
      (told_connects u loads now text h labels s1 (htext v) h1) ha, h2⟩,
    ⟨w, told_run u loads now text labels s2 (htext w) h3 as _
      (told_connects u loads now text h labels s2 (htext w) h3) ha, h4⟩⟩

/-- Nothing else that is kept on a topic for a configuration is touched by the daemon. -/
theorem C163_others (u : UniTable) (loads : Bytes → Option JVal) (now : Nat → PyDateTime) (text : MqttPayload → Bytes)
    (h : Hub) (labels : List (Int × Str)) (t : Str) (ht : "/config".toList <:+ t) (hn : t ∉ discoveryTopics) :
    toldOn t (h.step u loads now text (.connects labels)).1.keep = toldOn t h.keep := by
  have hf : (metaMessage :: groupAddresses.flatMap (configsOf labels)).filter (fun e => pubTopic e = some t) = [] := by
    apply List.filter_eq_nil_iff.2
    intro x hx he
    refine hn ?_
    rw [← discovery_topics labels]
    exact List.mem_filterMap.2 ⟨x, hx, of_decide_eq_true he⟩
  have h1 : toldOn t (Hub.steps u loads now text { h with asked := [] } [.broker labels]).1.keep = toldOn t h.keep := by
    simp only [Hub.steps, daemonRun, List.flatMap_cons, List.flatMap_nil, List.append_nil, daemonDo, daemonDo.onState, C66_connect]
    exact told_nothing text (.subscribe (groupAddresses.map fun ga => ((topicText .lightSet ga).toList, 2)) ::
      (metaMessage :: groupAddresses.flatMap (configsOf labels))) (by
        rw [List.filter_cons, if_neg (by simp [pubTopic])]; exact hf) h.keep
  simp only [Hub.step]
  generalize Hub.steps u loads now text { h with asked := [] } [.broker labels] = r at h1 ⊢
  rw [told_steps _ _ _ _ _ _ (by
    intro x hx l e
    subst e
    simp at hx) ht]
  exact h1

/-- A daemon is started with a file in which group 7 is the kitchen, later with one in which it is the pantry and then
loses its connection to the network: a client that asks then is told of the pantry. -/
example (u : UniTable) (loads : Bytes → Option JVal) (now : Nat → PyDateTime) (text : MqttPayload → Bytes)
    (htext : ∀ v, text (.json (.obj v)) ≠ []) (h : Hub) :
    ∃ v, toldOn "homeassistant/light/cbus_7/config".toList
        (h.run u loads now text [.connects [(7, "Kitchen".toList)], .leaves, .connects [(7, "Pantry".toList)], .lost, .tick]).keep =
      [text (.json (.obj v))] ∧ dictGet v "name".toList = some (.str "Pantry".toList) := by
  obtain ⟨⟨v, h1, h2⟩, -⟩ := C163_names u loads now text htext
    (h.run u loads now text [.connects [(7, "Kitchen".toList)], .leaves]) [(7, "Pantry".toList)] [.lost, .tick]
    (by intro a ha; simp at ha; rcases ha with rfl | rfl <;> trivial) 7 (by decide +kernel)
  have e : (topicText .lightConfig 7).toList = "homeassistant/light/cbus_7/config".toList := by decide +kernel
  rw [e] at h1
  simp only [Hub.run] at h1 ⊢
  exact ⟨v, h1, h2.name⟩

end CBus.Props
