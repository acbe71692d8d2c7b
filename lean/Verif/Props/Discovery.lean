import Verif.Props.MqttEvents
import Verif.Lemmas.Trace

/-! # C66, C67, C72: discovery, feedback, credentials -/

namespace CBus.Props
open CBus CBus.Spec

/-! ## C66 -/

theorem pad3_threeDigits (n : Nat) : pad3 (Int.ofNat n) = threeDigits n := by
  have h : (toString n).toList = natStr n := by
    rw [natStr_eq]; exact Nat.toList_repr
  unfold pad3 threeDigits
  rw [if_neg (by simp), h]
  rfl

theorem defaultName_eq (n : Nat) : Mqtt.defaultName (Int.ofNat n) = "C-Bus Light ".toList ++ threeDigits n := by
  unfold Mqtt.defaultName; rw [pad3_threeDigits]

theorem name_eq (labels : List (Int × Str)) (n : Nat) :
    (dictGet labels (Int.ofNat n)).getD (Mqtt.defaultName (Int.ofNat n)) = lightName labels (Int.ofNat n) := by
  unfold lightName
  cases dictGet labels (Int.ofNat n) with
  | none => exact defaultName_eq n
  | some l => rfl

/-- The two configuration messages of a group address. -/
def configsOf (labels : List (Int × Str)) (ga : Int) : List MqttEff :=
  [.publish (topicText .lightConfig ga).toList (.json (Mqtt.lightConfig (lightName labels ga) ga)) 1 true,
   .publish (topicText .sensorConfig ga).toList (.json (Mqtt.binSensorConfig (lightName labels ga) ga)) 1 true]

/-- The message for the daemon itself. -/
def metaMessage : MqttEff :=
  .publish "homeassistant/binary_sensor/cbus_cmqttd/config".toList (.json Mqtt.metaConfig) 1 true

theorem publishLights_run (labels : List (Int × Str)) : ∀ (ns : List Nat) (s : Client),
    Mqtt.publishLights labels (ns.map Int.ofNat) s =
      (s, ((ns.map Int.ofNat).flatMap (configsOf labels)).map .ext, .ok ()) := by
  intro ns
  induction ns with
  | nil => intro s; rfl
  | cons n ns ih =>
    intro s
    have h1 : confTopic (Int.ofNat n) = (topicText .lightConfig (Int.ofNat n)).toList := C59_text .lightConfig _
    have h2 : binSensorConfTopic (Int.ofNat n) = (topicText .sensorConfig (Int.ofNat n)).toList := C59_text .sensorConfig _
    have hp : Mqtt.publishLight labels (Int.ofNat n) s = (s, (configsOf labels (Int.ofNat n)).map .ext, .ok ()) := by
      unfold Mqtt.publishLight Mqtt.publish
      simp only [Proc.andThen, Proc.emit, h1, h2, name_eq]
      rfl
    simp only [List.map_cons, Mqtt.publishLights, Proc.andThen, hp, ih s, List.flatMap_cons, List.map_append]

/-- C66: on connecting to the broker, `cmqttd` subscribes to exactly the set topics
of the 256 group addresses, and publishes the message for itself and one light and
one binary sensor configuration for each group address, in order; it writes nothing
to the C-Bus. -/
theorem C66_connect (labels : List (Int × Str)) (s : Client) :
    Mqtt.onConnect labels s = ({ s with mqttApi := true },
      .ext (.subscribe (groupAddresses.map fun ga => ((topicText .lightSet ga).toList, 2))) ::
        (metaMessage :: groupAddresses.flatMap (configsOf labels)).map .ext, .ok ()) := by
  have hs : gaRange.map (fun ga => (setTopic ga, 2)) =
      groupAddresses.map fun ga => ((topicText .lightSet ga).toList, 2) := by
    have : (fun ga => (setTopic ga, 2)) = fun ga => ((topicText .lightSet ga).toList, 2) := by
      funext ga; rw [← C59_text]; rfl
    rw [this]; rfl
  have hm : metaTopic ++ topicConfSuffix = "homeassistant/binary_sensor/cbus_cmqttd/config".toList := by decide +kernel
  have hg : gaRange = (List.range 256).map Int.ofNat := rfl
  unfold Mqtt.onConnect Mqtt.publishAllLights Mqtt.publish
  rw [hs, hm, hg]
  simp only [Proc.andThen, Proc.modify, Proc.emit, publishLights_run]
  rfl

/-- The topic of a message. -/
def pubTopic : MqttEff → Option Str
  | .publish t _ _ _ => some t
  | .subscribe _ => none

/-- The topic that belongs to a message of discovery. -/
def discoveryTopics : List Str :=
  "homeassistant/binary_sensor/cbus_cmqttd/config".toList ::
    groupAddresses.flatMap fun ga => [(topicText .lightConfig ga).toList, (topicText .sensorConfig ga).toList]

theorem discovery_topics (labels : List (Int × Str)) :
    (metaMessage :: groupAddresses.flatMap (configsOf labels)).filterMap pubTopic = discoveryTopics := by
  unfold discoveryTopics
  have : ∀ l : List Int, (l.flatMap (configsOf labels)).filterMap pubTopic =
      l.flatMap fun ga => [(topicText .lightConfig ga).toList, (topicText .sensorConfig ga).toList] := by
    intro l
    induction l with
    | nil => rfl
    | cons g l ih => simp only [List.flatMap_cons, List.filterMap_append, ih]; rfl
  rw [List.filterMap_cons]
  simp only [metaMessage, pubTopic, this]

theorem toList_inj {a b : String} (h : a.toList = b.toList) : a = b := String.toList_inj.1 h

theorem nodup_flatMap_pair {α β : Type} (f g : α → β) (hf : ∀ a b, f a = f b → a = b) (hg : ∀ a b, g a = g b → a = b)
    (hfg : ∀ a b, f a ≠ g b) : ∀ l : List α, l.Nodup → (l.flatMap fun a => [f a, g a]).Nodup := by
  intro l
  induction l with
  | nil => intro _; exact List.Pairwise.nil
  | cons x l ih =>
    intro h
    obtain ⟨h1, h2⟩ := List.nodup_cons.1 h
    have no : ∀ y, (y = f x ∨ y = g x) → y ∉ l.flatMap fun a => [f a, g a] := by
      intro y hy hm
      obtain ⟨a, ha, hm⟩ := List.mem_flatMap.1 hm
      simp only [List.mem_cons, List.not_mem_nil, or_false] at hm
      rcases hy with rfl | rfl <;> rcases hm with hm | hm
      · exact h1 (hf _ _ hm ▸ ha)
      · exact hfg _ _ hm
      · exact hfg _ _ hm.symm
      · exact h1 (hg _ _ hm ▸ ha)
    simp only [List.flatMap_cons, List.cons_append, List.nil_append]
    refine List.nodup_cons.2 ⟨?_, List.nodup_cons.2 ⟨no _ (.inr rfl), ih h2⟩⟩
    simp only [List.mem_cons, not_or]
    exact ⟨hfg x x, no _ (.inl rfl)⟩

/-- C66: these are 513 messages on pairwise different topics, none of them a topic
that it subscribes to. -/
theorem C66_distinct (labels : List (Int × Str)) :
    (metaMessage :: groupAddresses.flatMap (configsOf labels)).length = 513 ∧
    ((metaMessage :: groupAddresses.flatMap (configsOf labels)).filterMap pubTopic).Nodup ∧
    (groupAddresses.map fun ga => topicText .lightSet ga).Nodup := by
  have hn : groupAddresses.Nodup := by
    unfold groupAddresses
    refine List.Pairwise.map _ ?_ List.nodup_range
    intro a b h h'
    exact h (Int.ofNat.inj h')
  refine ⟨?_, ?_, ?_⟩
  · have : ∀ l : List Int, (l.flatMap (configsOf labels)).length = 2 * l.length := by
      intro l
      induction l with
      | nil => rfl
      | cons g l ih => simp only [List.flatMap_cons, List.length_append, ih, List.length_cons, configsOf, List.length_nil]; omega
    simp only [List.length_cons, this, groupAddresses, List.length_map, List.length_range]
  · rw [discovery_topics]
    unfold discoveryTopics
    refine List.nodup_cons.2 ⟨?_, ?_⟩
    · intro hm
      obtain ⟨ga, -, hm⟩ := List.mem_flatMap.1 hm
      simp only [List.mem_cons, List.not_mem_nil, or_false] at hm
      have e1 : "homeassistant/binary_sensor/cbus_cmqttd/config".toList = binSensorTopicPrefix ++ "cmqttd/config".toList := by
        decide +kernel
      rcases hm with hm | hm <;> rw [← C59_text, topicOf_parts] at hm
      · rw [e1] at hm
        exact head_sensor_light _ _ hm.symm
      · rw [e1] at hm
        have hm := List.append_cancel_left hm
        have e2 : "cmqttd/config".toList = 'c' :: "mqttd/config".toList := by decide +kernel
        rw [e2] at hm
        cases hi : intStr ga with
        | nil => exact intStr_ne_nil ga hi
        | cons c r =>
          rw [hi] at hm
          have hc := intStr_char ga c (by rw [hi]; simp)
          have := (List.cons.inj hm).1
          subst this
          revert hc; decide
    · refine nodup_flatMap_pair _ _ ?_ ?_ ?_ _ hn
      · intro a b h; exact (C59_distinct _ _ a b (toList_inj h)).2
      · intro a b h; exact (C59_distinct _ _ a b (toList_inj h)).2
      · intro a b h; exact absurd (C59_distinct _ _ a b (toList_inj h)).1 (by simp)
  · refine List.Pairwise.map _ ?_ hn
    intro a b h h'
    exact h (C59_distinct _ _ a b h').2

theorem dictGet_cons {α : Type} (k k' : Str) (v : α) (l : List (Str × α)) :
    dictGet ((k, v) :: l) k' = if k = k' then some v else dictGet l k' := by
  unfold dictGet
  rw [List.find?_cons]
  by_cases h : k = k' <;> simp [h]

/-- A message is the only one on its topic if no topic is used twice. -/
theorem pub_once : ∀ (l : List MqttEff) (x : MqttEff) (t : Str), (l.filterMap pubTopic).Nodup → x ∈ l →
    pubTopic x = some t → l.filter (fun e => pubTopic e = some t) = [x] := by
  intro l x t
  induction l with
  | nil => intro _ h; simp at h
  | cons y l ih =>
    intro hn hx ht
    have hn' : (l.filterMap pubTopic).Nodup := by
      rw [List.filterMap_cons] at hn
      split at hn
      · exact hn
      · exact (List.nodup_cons.1 hn).2
    by_cases hy : pubTopic y = some t
    · have hnot : t ∉ l.filterMap pubTopic := by
        rw [List.filterMap_cons, hy] at hn
        exact (List.nodup_cons.1 hn).1
      have hl : l.filter (fun e => pubTopic e = some t) = [] := by
        rw [List.filter_eq_nil_iff]
        intro z hz h
        exact hnot (List.mem_filterMap.2 ⟨z, hz, by simpa using h⟩)
      have hxy : x = y := by
        rcases List.mem_cons.1 hx with h | h
        · exact h
        · exact absurd (List.mem_filterMap.2 ⟨x, h, ht⟩) hnot
      simp [hy, hl, hxy]
    · have : x ∈ l := by
        rcases List.mem_cons.1 hx with h | h
        · exact absurd (h ▸ ht) hy
        · exact h
      simp only [List.filter_cons, hy, decide_false, Bool.false_eq_true, if_false]
      exact ih hn' this ht

/-- Finding a key among texts that are known. -/
theorem object_get (l : List (String × JVal)) (k : String) (v : JVal)
    (h : (l.map (·.1)).Nodup) (hm : (k, v) ∈ l) : dictGet (object l) k.toList = some v := by
  unfold object
  induction l with
  | nil => cases hm
  | cons p l ih =>
    rw [List.map_cons, dictGet_cons]
    rw [List.map_cons, List.nodup_cons] at h
    rcases List.mem_cons.1 hm with rfl | hm
    · rw [if_pos rfl]
    · rw [if_neg, ih h.2 hm]
      intro e
      rw [String.toList_inj] at e
      exact h.1 (List.mem_map.2 ⟨_, hm, e.symm⟩)

theorem object_keys (l : List (String × JVal)) :
    (object l).map (·.1) = (l.map (·.1)).map String.toList := by
  unfold object
  rw [List.map_map, List.map_map]
  rfl

theorem device_eq (kind : String) (n : Nat) :
    Mqtt.deviceConfig kind.toList (Int.ofNat n) = .obj (deviceOf kind (Int.ofNat n)) := by
  unfold Mqtt.deviceConfig deviceOf
  rw [defaultName_eq]
  simp only [object, List.map_cons, List.map_nil, text, String.toList_append, ← intStr_toString, Mqtt.js]
  rfl

theorem lightConfig_ok (name : Str) (ga : Int) (hg : ga ∈ groupAddresses) :
    ∃ v, Mqtt.lightConfig name ga = .obj v ∧ IsLightConfig name ga v := by
  obtain ⟨n, -, rfl⟩ := List.mem_map.1 hg
  have e : Mqtt.lightConfig name (Int.ofNat n) = .obj (object [("name", .str name),
      ("unique_id", .str ("cbus_light_" ++ toString (Int.ofNat n)).toList),
      ("cmd_t", .str (topicText .lightSet (Int.ofNat n)).toList),
      ("stat_t", .str (topicText .lightState (Int.ofNat n)).toList), ("schema", .str "json".toList),
      ("brightness", .bool true), ("device", .obj (deviceOf "cbus_light_" (Int.ofNat n)))]) := by
    unfold Mqtt.lightConfig
    rw [device_eq, ← C59_text .lightSet, ← C59_text .lightState, String.toList_append, ← intStr_toString]
    rfl
  refine ⟨_, e, ?_⟩
  have hn : ["name", "unique_id", "cmd_t", "stat_t", "schema", "brightness", "device"].Nodup := by decide +kernel
  constructor
  case nothing_else => exact object_keys _
  all_goals exact object_get _ _ _ hn (by simp)

theorem sensorConfig_ok (name : Str) (ga : Int) (hg : ga ∈ groupAddresses) :
    ∃ v, Mqtt.binSensorConfig name ga = .obj v ∧ IsSensorConfig name ga v := by
  obtain ⟨n, -, rfl⟩ := List.mem_map.1 hg
  have e : Mqtt.binSensorConfig name (Int.ofNat n) = .obj (object [("name", .str (name ++ " (as binary sensor)".toList)),
      ("unique_id", .str ("cbus_bin_sensor_" ++ toString (Int.ofNat n)).toList),
      ("stat_t", .str (topicText .sensorState (Int.ofNat n)).toList),
      ("device", .obj (deviceOf "cbus_bin_sensor_" (Int.ofNat n)))]) := by
    unfold Mqtt.binSensorConfig
    rw [device_eq, ← C59_text .sensorState, String.toList_append, ← intStr_toString]
    rfl
  refine ⟨_, e, ?_⟩
  have hn : ["name", "unique_id", "stat_t", "device"].Nodup := by decide +kernel
  constructor
  case nothing_else => exact object_keys _
  all_goals exact object_get _ _ _ hn (by simp)

/-- C66: the message for the daemon itself, once and retained on its own topic,
announces the device that all the lights and sensors refer to as the one they are
connected by. -/
theorem C66_daemon (labels : List (Int × Str)) :
    ∃ v, metaMessage =
        .publish "homeassistant/binary_sensor/cbus_cmqttd/config".toList (.json (.obj v)) 1 true ∧ IsDaemonConfig v ∧
      (metaMessage :: groupAddresses.flatMap (configsOf labels)).filter
        (fun e => pubTopic e = some "homeassistant/binary_sensor/cbus_cmqttd/config".toList) = [metaMessage] ∧
      ∀ kind ga, ∃ i, dictGet (deviceOf kind ga) "via_device".toList = some i ∧
        dictGet daemonDevice "identifiers".toList = some (.arr [i]) := by
  have e : Mqtt.metaConfig = .obj (object [("~", text "homeassistant/binary_sensor/cbus_cmqttd"),
      ("name", text "cmqttd"), ("unique_id", text "cmqttd"), ("stat_t", text "~/state"),
      ("device", .obj daemonDevice)]) := by decide +kernel
  have hn : ["~", "name", "unique_id", "stat_t", "device"].Nodup := by decide +kernel
  refine ⟨_, by unfold metaMessage; rw [e], ?_, ?_, ?_⟩
  · constructor
    case nothing_else => exact object_keys _
    all_goals exact object_get _ _ _ hn (by simp)
  · exact pub_once _ _ _ (C66_distinct labels).2.1 List.mem_cons_self rfl
  · intro kind ga
    have hd : ["identifiers", "connections", "sw_version", "name", "manufacturer", "model", "via_device"].Nodup := by
      decide +kernel
    exact ⟨text "cmqttd", object_get _ _ _ hd (by simp), by decide +kernel⟩

/-- C66: for each group address, exactly one of the messages is on its light
configuration topic; it is retained, and announces a light with the project label if
there is one, a unique name, and the command and state topics of C59. The same for
the binary sensor. -/
theorem C66_announced (labels : List (Int × Str)) (ga : Int) (hg : ga ∈ groupAddresses) :
    (∃ v, (metaMessage :: groupAddresses.flatMap (configsOf labels)).filter
        (fun e => pubTopic e = some (topicText .lightConfig ga).toList) =
          [.publish (topicText .lightConfig ga).toList (.json (.obj v)) 1 true] ∧
      IsLightConfig (lightName labels ga) ga v) ∧
    (∃ v, (metaMessage :: groupAddresses.flatMap (configsOf labels)).filter
        (fun e => pubTopic e = some (topicText .sensorConfig ga).toList) =
          [.publish (topicText .sensorConfig ga).toList (.json (.obj v)) 1 true] ∧
      IsSensorConfig (lightName labels ga) ga v) := by
  have hd := (C66_distinct labels).2.1
  obtain ⟨v, h1, h2⟩ := lightConfig_ok (lightName labels ga) ga hg
  obtain ⟨w, h3, h4⟩ := sensorConfig_ok (lightName labels ga) ga hg
  refine ⟨⟨v, ?_, h2⟩, ⟨w, ?_, h4⟩⟩
  · refine pub_once _ _ _ hd (List.mem_cons_of_mem _ (List.mem_flatMap.2 ⟨ga, hg, ?_⟩)) rfl
    rw [← h1]; simp [configsOf]
  · refine pub_once _ _ _ hd (List.mem_cons_of_mem _ (List.mem_flatMap.2 ⟨ga, hg, ?_⟩)) rfl
    rw [← h3]; simp [configsOf]

/-- Everything in a configuration message except the name. -/
def withoutName : JVal → List (Str × JVal)
  | .obj v => v.filter fun p => p.1 ≠ "name".toList
  | _ => []

/-- C66: labels change nothing but names: topics, unique names and everything else in
the messages stay as they are. -/
theorem C66_labels_cosmetic (labels labels' : List (Int × Str)) :
    (Mqtt.onConnect labels {}).2.1.map (fun e => match e with
      | .ext (.publish t (.json v) q r) => some (t, withoutName v, q, r)
      | _ => none) =
    (Mqtt.onConnect labels' {}).2.1.map (fun e => match e with
      | .ext (.publish t (.json v) q r) => some (t, withoutName v, q, r)
      | _ => none) := by
  rw [C66_connect, C66_connect]
  have : ∀ l : List Int, ((l.flatMap (configsOf labels)).map Eff.ext).map (fun e => match e with
      | .ext (.publish t (.json v) q r) => some (t, withoutName v, q, r)
      | _ => none) = ((l.flatMap (configsOf labels')).map Eff.ext).map (fun e => match e with
      | .ext (.publish t (.json v) q r) => some (t, withoutName v, q, r)
      | _ => none) := by
    intro l
    induction l with
    | nil => rfl
    | cons g l ih =>
      simp only [List.flatMap_cons, List.map_append, ih]
      congr 1
  simp only [List.map_cons, this]

example : (Mqtt.onConnect [(7, "Kitchen".toList)] { connected := true }).2.1.filterMap (fun e => match e with
      | .ext (.publish t (.json (.obj v)) q r) =>
        if t = "homeassistant/light/cbus_7/config".toList ∨ t = "homeassistant/light/cbus_8/config".toList
        then (dictGet v "name".toList).map fun n => (t, n, q, r) else none
      | _ => none) =
    [("homeassistant/light/cbus_7/config".toList, .str "Kitchen".toList, 1, true),
     ("homeassistant/light/cbus_8/config".toList, .str "C-Bus Light 008".toList, 1, true)] := by decide +kernel

/-! ## C67 -/

/-- No message is published on a topic that ends in `/set`. -/
def NoSet (o : List (Eff MqttEff)) : Prop :=
  ∀ t p q r, Eff.ext (.publish t p q r) ∈ o → ¬ "/set".toList <:+ t

theorem not_suffix {a b t : Str} (hb : b <:+ t) (hl : a.length ≤ b.length) (h : ¬ a <:+ b) : ¬ a <:+ t := by
  intro ha
  exact h (List.suffix_of_suffix_length_le ha hb hl)

theorem state_not_set (t : Str) (h : "/state".toList <:+ t) : ¬ "/set".toList <:+ t :=
  not_suffix h (by decide) (by decide)

theorem config_not_set (t : Str) (h : "/config".toList <:+ t) : ¬ "/set".toList <:+ t :=
  not_suffix h (by decide) (by decide)

theorem topic_suffix (k : TopicKind) (ga : Int) : suffixOf k <:+ (topicText k ga).toList := by
  rw [← C59_text, topicOf_parts, ← List.append_assoc]
  exact ⟨_, rfl⟩

theorem eventMessages_noSet (e : Event) : NoSet ((eventMessages e).map .ext) := by
  intro t p q r h
  simp only [List.mem_map, Eff.ext.injEq, exists_eq_right] at h
  have pair : ∀ ga on l d src on', (MqttEff.publish t p q r) ∈ [stateMessage ga on l d src, sensorMessage ga on'] →
      ¬ "/set".toList <:+ t := by
    intro ga on l d src on' h
    simp only [List.mem_cons, List.not_mem_nil, or_false, stateMessage, sensorMessage, MqttEff.publish.injEq] at h
    rcases h with h | h
    · rw [h.1]; exact state_not_set _ (topic_suffix .lightState ga)
    · rw [h.1]; exact state_not_set _ (topic_suffix .sensorState ga)
  cases e with
  | lightingOn src ga => exact pair _ _ _ _ _ _ h
  | lightingOff src ga => exact pair _ _ _ _ _ _ h
  | lightingRamp src ga d l => exact pair _ _ _ _ _ _ h
  | _ => simp [eventMessages] at h

theorem noSet_rel : TraceRel (σ := Client) fun _ o _ => NoSet o where
  nil := fun _ _ _ _ _ h => by simp at h
  append := fun h1 h2 t p q r h => by
    rcases List.mem_append.1 h with h | h
    · exact h1 t p q r h
    · exact h2 t p q r h

/-- A method that only writes and calls handlers that publish nothing. -/
def Silent {α : Type} (m : Proc Client (Eff MqttEff) α) : Prop := Keeps (fun _ o _ => NoSet o) m

theorem silent_of_writes {α : Type} {m : Proc Client (Eff MqttEff) α}
    (h : ∀ s, ∀ x ∈ (m s).2.1, ∀ y, x ≠ .ext y) : Silent m := by
  intro s t p q r hm
  exact absurd rfl (h s _ hm _)

theorem send_silent (p : Packet) (b : Bool) : Silent (Client.send p b) := by
  apply silent_of_writes
  intro s x hx y hy
  subst hy
  unfold Client.send Proc.andThen Client.getConfirmationCode at hx
  repeat' split at hx
  all_goals first | (simp at hx; done) | skip
  all_goals (rename_i h; split at h <;> simp_all)

theorem sendSals_silent (x : Py (List SAL)) : Silent (Client.sendSals x) := by
  intro s
  unfold Client.sendSals
  repeat' split
  · exact noSet_rel.nil s
  · exact noSet_rel.nil s
  · exact send_silent _ _ s

theorem clockDatetime_silent (now : Nat → PyDateTime) (w : Option PyDateTime) : Silent (Client.clockDatetime now w) := by
  intro s
  unfold Client.clockDatetime
  split
  · exact sendSals_silent _ _
  · exact sendSals_silent _ { s with clockReads := s.clockReads + 1 }

theorem lightingMany_silent (mk : Int → Py SAL) (gas : List Int) : Silent (Client.lightingMany mk gas) := by
  intro s
  unfold Client.lightingMany
  split
  · exact noSet_rel.nil s
  · exact sendSals_silent _ s

theorem publish_silent (e : Event) {m : Mqtt.Act} (h : ∀ s, m s = (s, (eventMessages e).map .ext, .ok ())) : Silent m := by
  intro s
  rw [h s]
  exact eventMessages_noSet e

theorem cbusHook_silent (now : Nat → PyDateTime) (e : Event) : Silent (Mqtt.cbusHook now e) := by
  by_cases he : ∀ src, e ≠ .clockRequest src
  · intro s
    rw [C62_event now e he s]
    show NoSet (if _ then _ else _)
    split
    · exact eventMessages_noSet e
    · exact noSet_rel.nil s
  · simp only [Classical.not_forall, Classical.not_not] at he
    obtain ⟨src, rfl⟩ := he
    exact Keeps.andThen noSet_rel (clockDatetime_silent now none) fun _ => Keeps.pure noSet_rel ()

theorem onMessage_silent (u : UniTable) (loads : Bytes → Option JVal) (topic : Str) (payload : Bytes) :
    Silent (Mqtt.onMessage u loads topic payload) := by
  have act : ∀ ga on b t, Silent (Mqtt.actOnPayload ga on b t) := by
    intro ga on b t
    unfold Mqtt.actOnPayload
    repeat' split
    · exact Keeps.andThen noSet_rel (lightingMany_silent _ _) fun _ => publish_silent _ (publish_on none ga)
    · exact Keeps.andThen noSet_rel (sendSals_silent _) fun _ => publish_silent _ (publish_ramp none ga t b)
    · exact Keeps.andThen noSet_rel (lightingMany_silent _ _) fun _ => publish_silent _ (publish_off none ga)
  unfold Mqtt.onMessage
  repeat' split
  all_goals first
    | exact act _ _ _ _
    | exact Keeps.pure noSet_rel ()
    | exact fun s => noSet_rel.nil s

theorem onConnect_noSet (labels : List (Int × Str)) (s : Client) : NoSet (Mqtt.onConnect labels s).2.1 := by
  rw [C66_connect]
  intro t p q r h
  simp only [List.mem_cons, reduceCtorEq, Eff.ext.injEq, List.map_cons, List.mem_map, exists_eq_right, false_or] at h
  rcases h with h | h
  · simp only [metaMessage, MqttEff.publish.injEq] at h
    rw [h.1]
    exact config_not_set _ (by decide +kernel)
  · obtain ⟨ga, -, h⟩ := List.mem_flatMap.1 h
    simp only [configsOf, List.mem_cons, List.not_mem_nil, or_false, MqttEff.publish.injEq] at h
    rcases h with h | h
    · rw [h.1]; exact config_not_set _ (topic_suffix .lightConfig ga)
    · rw [h.1]; exact config_not_set _ (topic_suffix .sensorConfig ga)

theorem dataReceived_noSet (now : Nat → PyDateTime) (d : Bytes) (c : Conn Client) :
    NoSet (Client.dataReceived (Mqtt.cbusHook now) d c).2.1 := by
  have hcall : ∀ e, Silent (Client.call (Mqtt.cbusHook now) e) := fun e =>
    Keeps.andThen noSet_rel (fun s t p q r h => by simp [Proc.emit] at h) fun _ => cbusHook_silent now e
  have hsal : ∀ src x, Silent (Client.onSal (Mqtt.cbusHook now) src x) := by
    intro src x
    cases x <;> first | exact hcall _ | exact Keeps.pure noSet_rel ()
  have hsals : ∀ src l, Silent (Client.onSals (Mqtt.cbusHook now) src l) := by
    intro src l
    induction l with
    | nil => exact Keeps.pure noSet_rel ()
    | cons x l ih => exact Keeps.andThen noSet_rel (hsal src x) fun _ => ih
  have hp : ∀ p, Silent (Client.onPacket (Mqtt.cbusHook now) p) := by
    intro p
    cases p <;> first | exact hsals _ _ | exact hcall _ | exact Keeps.pure noSet_rel ()
  exact Keeps.dataReceived noSet_rel (fun b => Keeps.handleData noSet_rel (fun _ => Keeps.pure noSet_rel ()) hp b) _ d c

/-- C67: everything `cmqttd` publishes – on connecting to the broker, on any message,
on any data from the PCI – is on a topic on which `on_message` does nothing, whatever
the payload and the state. -/
theorem C67_no_feedback (now : Nat → PyDateTime) (u : UniTable) (loads : Bytes → Option JVal) (o : List (Eff MqttEff))
    (ho : (∃ labels s, o = (Mqtt.onConnect labels s).2.1) ∨
      (∃ topic payload s, o = (Mqtt.onMessage u loads topic payload s).2.1) ∨
      (∃ d c, o = (Client.dataReceived (Mqtt.cbusHook now) d c).2.1))
    (t : Str) (p : MqttPayload) (q : Nat) (r : Bool) (h : .ext (.publish t p q r) ∈ o) (payload : Bytes) (s : Client) :
    Mqtt.onMessage u loads t payload s = (s, [], .ok ()) := by
  have hn : NoSet o := by
    rcases ho with ⟨labels, s, e⟩ | ⟨topic, pl, s, e⟩ | ⟨d, c, e⟩ <;> rw [e]
    · exact onConnect_noSet labels s
    · exact onMessage_silent u loads topic pl s
    · exact dataReceived_noSet now d c
  exact C60_ignored u loads t payload s (.inl fun ga hs => hn t p q r h hs.2.1)

example : (Mqtt.onMessage .ascii (fun _ => some exampleSet) "homeassistant/light/cbus_7/state".toList []
    { connected := true }).2 = ([], .ok ()) := by decide +kernel

/-! ## C72 -/

/-- The first line of a text and the text after it. -/
def firstLine (f : Str) : Str × Str := (f.takeWhile (· ≠ '\n'), (f.dropWhile (· ≠ '\n')).drop 1)

theorem readline_line (u : UniTable) (f : Str) : u.strip (readline f).1 = u.strip (firstLine f).1 ∧ (readline f).2 = (firstLine f).2 := by
  unfold readline firstLine
  simp only
  have hd := dropWhile_split (fun c => decide (c ≠ '\n')) f
  cases hr : f.dropWhile (fun c => decide (c ≠ '\n')) with
  | nil => exact ⟨rfl, rfl⟩
  | cons c r =>
    obtain ⟨-, -, -, h3⟩ := hd
    have hc : c = '\n' := by
      have := h3 c (by rw [hr]; rfl)
      simpa using this
    refine ⟨?_, rfl⟩
    simp only
    generalize f.takeWhile _ = l
    apply stripped_unique u.isSpace (strip_stripped u _)
    obtain ⟨⟨a, b, h1, h2, h3⟩, h4, h5⟩ := strip_stripped u l
    refine ⟨⟨a, b ++ [c], ?_, h2, ?_⟩, h4, h5⟩
    · rw [← List.append_assoc, ← h1]
    · intro x hx
      rcases List.mem_append.1 hx with hx | hx
      · exact h3 x hx
      · simp only [List.mem_singleton] at hx
        subst hx
        rw [hc, u.ascii_space _ (by decide)]
        decide

/-- C72: the user name is the first line of the file and the password the second,
without the white space around them; if the file has only one line the password is
empty. -/
theorem C72_auth (u : UniTable) (f : Str) :
    Stripped u.isSpace (firstLine f).1 (readAuth u f).1 ∧
    Stripped u.isSpace (firstLine (firstLine f).2).1 (readAuth u f).2 := by
  obtain ⟨h1, h2⟩ := readline_line u f
  obtain ⟨h3, -⟩ := readline_line u (firstLine f).2
  have e1 : (readAuth u f).1 = u.strip (readline f).1 := rfl
  have e2 : (readAuth u f).2 = u.strip (readline (readline f).2).1 := rfl
  rw [e1, e2, h1, h2, h3]
  exact ⟨strip_stripped u _, strip_stripped u _⟩

/-- C72: in particular, a file of any user name and password without line breaks or
white space around them gives exactly those. -/
theorem C72_verbatim (u : UniTable) (user pass rest : Str) (hu : '\n' ∉ user) (hp : '\n' ∉ pass)
    (hu' : Stripped u.isSpace user user) (hp' : Stripped u.isSpace pass pass) :
    readAuth u (user ++ '\n' :: pass ++ '\n' :: rest) = (user, pass) ∧
    readAuth u (user ++ '\n' :: pass) = (user, pass) := by
  have fl : ∀ (a r : Str), '\n' ∉ a → firstLine (a ++ '\n' :: r) = (a, r) := by
    intro a r ha
    have h : ∀ c ∈ a, decide (c ≠ '\n') = true := by
      intro c hc
      simp only [decide_eq_true_eq]
      rintro rfl; exact ha hc
    unfold firstLine
    rw [List.takeWhile_append_of_pos h, List.dropWhile_append_of_pos h]
    simp
  have fl' : ∀ (a : Str), '\n' ∉ a → firstLine a = (a, []) := by
    intro a ha
    have h : ∀ c ∈ a, decide (c ≠ '\n') = true := by
      intro c hc
      simp only [decide_eq_true_eq]
      rintro rfl; exact ha hc
    have h1 := List.takeWhile_append_of_pos (l₂ := []) h
    have h2 := List.dropWhile_append_of_pos (l₂ := []) h
    simp only [List.append_nil, List.takeWhile_nil, List.dropWhile_nil] at h1 h2
    unfold firstLine
    rw [h1, h2]; rfl
  obtain ⟨a1, a2⟩ := C72_auth u (user ++ '\n' :: pass ++ '\n' :: rest)
  obtain ⟨b1, b2⟩ := C72_auth u (user ++ '\n' :: pass)
  rw [List.append_assoc, List.cons_append, fl user _ hu] at a1 a2
  rw [fl user _ hu] at b1 b2
  simp only [fl pass _ hp, fl' pass hp] at a1 a2 b1 b2
  rw [List.append_assoc, List.cons_append]
  exact ⟨Prod.ext (stripped_unique _ a1 hu') (stripped_unique _ a2 hp'),
    Prod.ext (stripped_unique _ b1 hu') (stripped_unique _ b2 hp')⟩

example : readAuth .ascii "  alice \t\ns3cret word\n# comment\n".toList = ("alice".toList, "s3cret word".toList) ∧
    readAuth .ascii "bob".toList = ("bob".toList, []) := by decide +kernel

end CBus.Props
