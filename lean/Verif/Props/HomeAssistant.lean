import Verif.Props.Timing
import Verif.Props.Discovery
import Verif.Props.Town
import Verif.Props.DumpText
import Verif.Spec.HomeAssistant

/-! # C147: lights in Home Assistant -/

namespace CBus.Props
open CBus CBus.Spec CBus.Json CBus.Spec.Json CBus.Spec.Hass

/-- The light of a group. -/
def lightEntity (labels : List (Int × Str)) (ga : Int) : Entity :=
  .light (lightName labels ga) ("cbus_light_" ++ toString ga).toList (topicText .lightSet ga).toList
    (topicText .lightState ga).toList true

/-- The binary sensor of a group. -/
def sensorEntity (labels : List (Int × Str)) (ga : Int) : Entity :=
  .sensor (lightName labels ga ++ " (as binary sensor)".toList) ("cbus_bin_sensor_" ++ toString ga).toList
    (topicText .sensorState ga).toList

/-- The daemon itself. -/
def daemonEntity : Entity :=
  .sensor "cmqttd".toList "cmqttd".toList "homeassistant/binary_sensor/cbus_cmqttd/state".toList

theorem parts_slash {a : Str} (h : '/' ∉ a) (b : Str) : parts (a ++ '/' :: b) = a :: parts b := by
  induction a with
  | nil => simp [parts]
  | cons c a ih =>
    have hc : c ≠ '/' := fun e => h (e ▸ List.mem_cons_self)
    rw [List.cons_append, parts, if_neg hc, ih fun hm => h (List.mem_cons_of_mem _ hm)]

theorem int_id (ga : Int) (hg : ga ∈ groupAddresses) : ∀ c ∈ intStr ga, idChar c = true ∧ c ≠ '/' := by
  intro c hc
  obtain ⟨n, -, rfl⟩ := List.mem_map.1 hg
  have hd := natStr_digit n c (by
    unfold intStr at hc
    rw [if_neg (by simp)] at hc
    exact hc)
  refine ⟨?_, by rintro rfl; revert hd; decide⟩
  have : c.isDigit = true := by
    unfold Char.isDigit
    have e : c.toNat = c.val.toNat := rfl
    rw [e] at hd
    simp only [ge_iff_le, UInt32.le_iff_toNat_le, Bool.and_eq_true, decide_eq_true_eq]
    exact hd
  simp [idChar, Char.isAlphanum, this]

theorem component_of (c : Str) (hc : '/' ∉ c) (ga : Int) (hg : ga ∈ groupAddresses) :
    component ("homeassistant".toList ++ '/' :: (c ++ '/' :: (("cbus_".toList ++ intStr ga) ++ '/' :: "config".toList))) =
      some c := by
  have hi := int_id ga hg
  have hb : ∀ x ∈ "cbus_".toList, idChar x = true ∧ x ≠ '/' := by decide
  have ho : ∀ x ∈ "cbus_".toList ++ intStr ga, idChar x = true ∧ x ≠ '/' := by
    intro x hx
    rcases List.mem_append.1 hx with hx | hx
    · exact hb x hx
    · exact hi x hx
  have hp : parts ("homeassistant".toList ++ '/' :: (c ++ '/' :: (("cbus_".toList ++ intStr ga) ++ '/' :: "config".toList))) =
      ["homeassistant".toList, c, "cbus_".toList ++ intStr ga, "config".toList] := by
    rw [parts_slash (by decide), parts_slash hc, parts_slash fun h => (ho _ h).2 rfl]
    rfl
  unfold component
  rw [hp]
  exact if_pos ⟨rfl, rfl, by simp, List.all_eq_true.2 fun x hx => (ho x hx).1⟩

theorem component_light (ga : Int) (hg : ga ∈ groupAddresses) :
    component (topicText .lightConfig ga).toList = some "light".toList := by
  rw [← C59_text]
  have := component_of "light".toList (by decide) ga hg
  rw [← this]
  rfl

theorem component_sensor (ga : Int) (hg : ga ∈ groupAddresses) :
    component (topicText .sensorConfig ga).toList = some "binary_sensor".toList := by
  rw [← C59_text]
  have := component_of "binary_sensor".toList (by decide) ga hg
  rw [← this]
  rfl

theorem id_parts (a : String) (i : Int) : a.toList ++ intStr i = (a ++ toString i).toList := by
  rw [String.toList_append, intStr_toString]

theorem found_light (labels : List (Int × Str)) (ga : Int) (hg : ga ∈ groupAddresses) :
    found (.publish (topicText .lightConfig ga).toList (.json (Mqtt.lightConfig (lightName labels ga) ga)) 1 true) =
      some (lightEntity labels ga) := by
  have hi : "cbus_light_".toList ++ intStr ga = ("cbus_light_" ++ toString ga).toList := id_parts _ _
  have h1 : setTopic ga = (topicText .lightSet ga).toList := C59_text .lightSet ga
  have h2 : stateTopic ga = (topicText .lightState ga).toList := C59_text .lightState ga
  show entity (topicText .lightConfig ga).toList (Mqtt.lightConfig (lightName labels ga) ga) = _
  unfold Mqtt.lightConfig
  rw [hi, h1, h2]
  generalize Mqtt.deviceConfig _ _ = dev
  unfold lightEntity
  generalize lightName labels ga = name
  generalize ("cbus_light_" ++ toString ga).toList = id
  generalize (topicText .lightSet ga).toList = c
  generalize (topicText .lightState ga).toList = s
  unfold entity
  rw [component_light ga hg]
  rfl

theorem found_sensor (labels : List (Int × Str)) (ga : Int) (hg : ga ∈ groupAddresses) :
    found (.publish (topicText .sensorConfig ga).toList (.json (Mqtt.binSensorConfig (lightName labels ga) ga)) 1 true) =
      some (sensorEntity labels ga) := by
  have hi : "cbus_bin_sensor_".toList ++ intStr ga = ("cbus_bin_sensor_" ++ toString ga).toList := id_parts _ _
  have h2 : binSensorStateTopic ga = (topicText .sensorState ga).toList := C59_text .sensorState ga
  show entity (topicText .sensorConfig ga).toList (Mqtt.binSensorConfig (lightName labels ga) ga) = _
  unfold Mqtt.binSensorConfig
  rw [hi, h2]
  generalize Mqtt.deviceConfig _ _ = dev
  unfold sensorEntity
  generalize lightName labels ga ++ _ = name
  generalize ("cbus_bin_sensor_" ++ toString ga).toList = id
  generalize (topicText .sensorState ga).toList = s
  unfold entity
  rw [component_sensor ga hg]
  rfl

theorem found_daemon : found metaMessage = some daemonEntity := by decide +kernel

theorem found_all (labels : List (Int × Str)) : ∀ l : List Int, (∀ ga ∈ l, ga ∈ groupAddresses) →
    (l.flatMap (configsOf labels)).map found = (l.flatMap fun ga => [lightEntity labels ga, sensorEntity labels ga]).map some := by
  intro l
  induction l with
  | nil => intro _; rfl
  | cons ga l ih =>
    intro h
    have hg := h ga List.mem_cons_self
    simp only [List.flatMap_cons, List.map_append, ih fun g hm => h g (List.mem_cons_of_mem _ hm)]
    congr 1
    simp only [configsOf, List.map_cons, List.map_nil, found_light labels ga hg, found_sensor labels ga hg]

/-- C147: each of the messages that are published on connecting makes an entity: the daemon's, and a
light and a binary sensor for each group. -/
theorem C147_found (labels : List (Int × Str)) (s : Client) :
    ((messagesOf (Mqtt.onConnect labels s).2.1).drop 1).map found =
      (daemonEntity :: groupAddresses.flatMap fun ga => [lightEntity labels ga, sensorEntity labels ga]).map some := by
  rw [C66_connect]
  have h : messagesOf (Eff.ext (.subscribe (groupAddresses.map fun ga => ((topicText .lightSet ga).toList, 2))) ::
      (metaMessage :: groupAddresses.flatMap (configsOf labels)).map Eff.ext) =
      .subscribe (groupAddresses.map fun ga => ((topicText .lightSet ga).toList, 2)) ::
        metaMessage :: groupAddresses.flatMap (configsOf labels) :=
    messagesOf_ext (_ :: metaMessage :: groupAddresses.flatMap (configsOf labels))
  rw [h, List.drop_one, List.tail_cons, List.map_cons, found_daemon, found_all labels _ fun _ h => h]
  rfl

theorem idText (p : String) (ga : Int) : (p ++ toString ga).toList = p.toList ++ (toString ga).toList := by
  rw [String.toList_append]

theorem toString_int_inj {a b : Int} (h : (toString a).toList = (toString b).toList) : a = b := by
  have h1 : toString a = toString b := String.toList_inj.1 h
  exact (C59_distinct .lightSet .lightSet a b (by unfold topicText; rw [h1])).2

theorem identities_nodup : ∀ l : List Int, l.Nodup → (l.flatMap fun ga =>
    [("cbus_light_" ++ toString ga).toList, ("cbus_bin_sensor_" ++ toString ga).toList]).Nodup := by
  have hls : ∀ a b : Int, ("cbus_light_" ++ toString a).toList ≠ ("cbus_bin_sensor_" ++ toString b).toList := by
    intro a b h
    rw [idText, idText] at h
    have := congrArg (fun l => l[5]?) h
    simp at this
  intro l
  induction l with
  | nil => intro _; exact List.nodup_nil
  | cons a l ih =>
    intro hn
    obtain ⟨h1, h2⟩ := List.nodup_cons.1 hn
    rw [List.flatMap_cons, List.nodup_append]
    refine ⟨?_, ih h2, ?_⟩
    · simp only [List.nodup_cons, List.mem_singleton, List.not_mem_nil, not_false_eq_true, List.nodup_nil, and_true]
      exact hls a a
    · intro x hx y hy e
      subst e
      obtain ⟨b, hb, hx'⟩ := List.mem_flatMap.1 hy
      simp only [List.mem_cons, List.not_mem_nil, or_false] at hx hx'
      have hab : a = b := by
        rcases hx with hx | hx <;> rcases hx' with hx' | hx'
        · rw [hx, idText, idText] at hx'
          exact toString_int_inj (List.append_cancel_left hx')
        · exact absurd (hx.symm.trans hx') (hls a b)
        · exact absurd (hx'.symm.trans hx) (hls b a)
        · rw [hx, idText, idText] at hx'
          exact toString_int_inj (List.append_cancel_left hx')
      exact h1 (hab ▸ hb)

/-- C147: no two of them have the same identity. -/
theorem C147_identities (labels : List (Int × Str)) :
    ((daemonEntity :: groupAddresses.flatMap fun ga => [lightEntity labels ga, sensorEntity labels ga]).map Entity.id).Nodup := by
  have e : (daemonEntity :: groupAddresses.flatMap fun ga => [lightEntity labels ga, sensorEntity labels ga]).map Entity.id =
      "cmqttd".toList :: groupAddresses.flatMap fun ga =>
        [("cbus_light_" ++ toString ga).toList, ("cbus_bin_sensor_" ++ toString ga).toList] := by
    rw [List.map_cons, List.map_flatMap]
    rfl
  rw [e, List.nodup_cons]
  refine ⟨?_, identities_nodup _ ?_⟩
  · intro h
    obtain ⟨ga, -, h⟩ := List.mem_flatMap.1 h
    simp only [List.mem_cons, List.not_mem_nil, or_false] at h
    rcases h with h | h
    · rw [idText] at h
      have := congrArg (fun l => l[1]?) h
      simp at this
    · rw [idText] at h
      have := congrArg (fun l => l[1]?) h
      simp at this
  · unfold groupAddresses
    refine List.Pairwise.map _ ?_ List.nodup_range
    intro a b h h'
    exact h (Int.ofNat.inj h')

/-! ## Operating a light -/

/-- What the daemon is to understand. -/
def Hass.setMessage : Service → SetMessage
  | .turnOn b t => { on := true, brightness := b.getD 255, transition := seconds t }
  | .turnOff t => { on := false, transition := seconds t }
where
  seconds : Option PyNum → Int
    | some (.int i) => i
    | some (.flt q) => q.floor
    | _ => 0

theorem off_notOn (u : UniTable) : ¬ StateOn u "OFF".toList := by
  rintro (h | ⟨⟨c, hc, h⟩, -⟩)
  · revert h; decide
  · revert h; revert c; decide

/-- The message means what was asked for. -/
theorem service_means (u : UniTable) (sv : Service) (hs : sv.Ok) : Means u sv.message (Hass.setMessage sv) := by
  have time : ∀ t, (∀ x, t = some x → (∃ i : Int, x = .int i ∧ 0 ≤ i) ∨ ∃ q : Rat, x = .flt q ∧ 0 ≤ q) →
      match t with
      | none => (Hass.setMessage.seconds t) = 0
      | some x => IntValue u (.num x) (Hass.setMessage.seconds t) := by
    intro t ht
    cases t with
    | none => rfl
    | some x =>
      rcases ht x rfl with ⟨i, rfl, -⟩ | ⟨q, rfl, h⟩
      · exact .int i
      · exact .float q _ (.inl ⟨h, Rat.floor_le q, by
          have := Rat.lt_floor_add_one q
          rw [Rat.intCast_add] at this
          exact this⟩)
  cases sv with
  | turnOn b t =>
    have ht := time t fun x hx => hs.2 x hx
    refine ⟨_, "ON".toList, rfl, rfl, ⟨fun _ => .inl (by decide), fun _ => rfl⟩, ?_, ?_⟩
    · cases b with
      | none => cases t <;> rfl
      | some b =>
        cases t with
        | none => exact IntValue.int b
        | some t => exact IntValue.int b
    · cases t with
      | none => cases b <;> exact ht
      | some t => exact ht
  | turnOff t =>
    have ht := time t fun x hx => hs.2 x hx
    refine ⟨_, "OFF".toList, rfl, rfl, ⟨fun h => Bool.noConfusion (show false = true from h), fun h => absurd h (off_notOn u)⟩, ?_, ?_⟩
    · cases t <;> rfl
    · cases t with
      | none => exact ht
      | some t => exact ht

/-- The message can be written down exactly. -/
theorem service_exact (env : JEnv) (sv : Service) (hs : sv.Ok)
    (hx : ∀ q, sv.transition = some (.flt q) → NumberText env (env.floatRepr q) (.flt q)) : Exact env sv.message := by
  have time : ∀ x, sv.transition = some x → Exact env (.num x) := by
    intro x h
    rcases hs.2 x h with ⟨i, rfl, -⟩ | ⟨q, rfl, -⟩
    · exact .int i
    · exact .float q (hx q h)
  cases sv with
  | turnOn b t =>
    cases t with
    | none =>
      cases b with
      | none => exact .obj _ (show ["state".toList].Nodup by decide) (by
          intro m hm; rw [List.mem_singleton.1 hm]; exact .str _)
      | some b => exact .obj _ (show ["state".toList, "brightness".toList].Nodup by decide) (by
          intro m hm
          rcases List.mem_cons.1 hm with rfl | hm
          · exact .str _
          · rw [List.mem_singleton.1 hm]; exact .int b)
    | some t =>
      cases b with
      | none => exact .obj _ (show ["state".toList, "transition".toList].Nodup by decide) (by
          intro m hm
          rcases List.mem_cons.1 hm with rfl | hm
          · exact .str _
          · rw [List.mem_singleton.1 hm]; exact time t rfl)
      | some b => exact .obj _ (show ["state".toList, "transition".toList, "brightness".toList].Nodup by decide) (by
          intro m hm
          rcases List.mem_cons.1 hm with rfl | hm
          · exact .str _
          rcases List.mem_cons.1 hm with rfl | hm
          · exact time t rfl
          · rw [List.mem_singleton.1 hm]; exact .int b)
  | turnOff t =>
    cases t with
    | none => exact .obj _ (show ["state".toList].Nodup by decide) (by
        intro m hm; rw [List.mem_singleton.1 hm]; exact .str _)
    | some t => exact .obj _ (show ["state".toList, "transition".toList].Nodup by decide) (by
        intro m hm
        rcases List.mem_cons.1 hm with rfl | hm
        · exact .str _
        · rw [List.mem_singleton.1 hm]; exact time t rfl)

/-- What the message about a light looks like. -/
theorem shown_state (g ga : Int) (on : Bool) (l d : Int) (src : Option Int) (on' : Bool) :
    ([stateMessage ga on (.int l) d src, sensorMessage ga on'].filterMap (onTopic (topicText .lightState g).toList)).map
      Shown.read = if ga = g then [some (if on then .on l else .off)] else [] := by
  have h2 : onTopic (topicText .lightState g).toList (sensorMessage ga on') = none := by
    refine if_neg (fun h => ?_)
    have := (C59_distinct .sensorState .lightState ga g (String.toList_inj.1 h)).1
    cases this
  by_cases h : ga = g
  · subst h
    rw [if_pos rfl]
    have h1 : onTopic (topicText .lightState ga).toList (stateMessage ga on (.int l) d src) =
        some (.json (.obj [("state".toList, .str (if on then "ON".toList else "OFF".toList)), ("brightness".toList, .num (.int l)),
          ("transition".toList, .num (.int d)),
          ("cbus_source_addr".toList, match src with | none => .null | some a => .num (.int a))])) := by
      exact if_pos rfl
    rw [List.filterMap_cons, h1, List.filterMap_cons, h2]
    cases on <;> rfl
  · rw [if_neg h]
    have h1 : onTopic (topicText .lightState g).toList (stateMessage ga on (.int l) d src) = none := by
      refine if_neg (fun e => ?_)
      exact h (C59_distinct .lightState .lightState ga g (String.toList_inj.1 e)).2
    rw [List.filterMap_cons, h1, List.filterMap_cons, h2]
    rfl

theorem byteOf_self (ga : UInt8) : byteOf (ga.toNat : Int) = ga := by
  apply UInt8.toNat_inj.1
  unfold byteOf
  rw [UInt8.toNat_ofNat']
  have := ga.toNat_lt
  omega

/-- Where orders for an entity go. -/
def Hass.orders : Entity → Str
  | .light _ _ c _ _ => c
  | .sensor .. => []

/-- Where the state of an entity comes from. -/
def Hass.states : Entity → Str
  | .light _ _ _ s _ => s
  | .sensor _ _ s => s

/-- Python writes the times that are asked for exactly. -/
def ExactTime (env : JEnv) (sv : Service) : Prop :=
  ∀ q, sv.transition = some (.flt q) → NumberText env (env.floatRepr q) (.flt q)

/-- C147: whatever is asked for, one command for this very light goes to the network, and the light is
shown as it was asked for; no other light is. -/
theorem C147_operates (u : UniTable) (env : JEnv) (now : Nat → PyDateTime) (labels : List (Int × Str)) (c : Conn Client)
    (hr : Ready c) (ga : UInt8) (sv : Service) (hs : sv.Ok) (hx : ExactTime env sv) :
    ∃ c' o order line,
      daemonDo u (loads env) now (.message (Hass.orders (lightEntity labels ga.toNat)) (utf8 (dumps env sv.message))) c =
        (c', o, .ok ()) ∧ Ready c' ∧ writesOf o = [line] ∧ OrderLine (ga, order) line ∧ ordered order = sv.wanted ∧
      ∀ g : UInt8, ((messagesOf o).filterMap (onTopic (Hass.states (lightEntity labels g.toNat)))).map Shown.read =
        if ga = g then [some sv.wanted] else [] := by
  have hga : IsByte (ga.toNat : Int) := by have := ga.toNat_lt; exact ⟨by omega, by omega⟩
  have hl := C100_round_trip env sv.message (service_exact env sv hs hx)
  have hm := service_means u sv hs
  have hb : 0 ≤ (Hass.setMessage sv).brightness ∨ (Hass.setMessage sv).on = false := by
    cases sv with
    | turnOn b t =>
      cases b with
      | none => exact .inl (by show (0 : Int) ≤ 255; decide)
      | some b => exact .inl (by have := (hs.1 b t rfl).1; show 0 ≤ b; omega)
    | turnOff t => exact .inr rfl
  obtain ⟨k, h1, h2⟩ := C60_acts_partial u (loads env) _ (ga.toNat : Int) (setTopic_isSetTopic u (ga.toNat : Int) hga) _ _ hl _ hm hb c.st hr.1
  have hcode : IsCode k := by
    have key : ∀ k : Fin 20, ∀ x ∈ cycleFrom k.1 1, IsCode x := by unfold IsCode; decide +kernel
    exact key ⟨c.st.nextConf, hr.1.2⟩ k (h1 ▸ List.mem_singleton.2 rfl)
  have hd : daemonDo u (loads env) now
      (.message (Hass.orders (lightEntity labels ga.toNat)) (utf8 (dumps env sv.message))) c =
      ({ c with st := { c.st with nextConf := (c.st.nextConf + 1) % 20 } },
        .write (setLine (Hass.setMessage sv) ga.toNat k) :: ((Hass.setMessage sv).messages ga.toNat).map .ext, .ok ()) := by
    show daemonDo.onState (Mqtt.onMessage u (loads env) (topicText .lightSet ga.toNat).toList _) c = _
    unfold daemonDo.onState
    rw [h2]
  have hw : ∀ l : Bytes, ∀ ms : List MqttEff, writesOf (Eff.write l :: ms.map Eff.ext) = [l] := by
    intro l ms
    simp [writesOf, List.filterMap_map, Function.comp_def]
  have hmo : ∀ l : Bytes, ∀ ms : List MqttEff, messagesOf (Eff.write l :: ms.map Eff.ext) = ms := by
    intro l ms
    have : messagesOf (ms.map Eff.ext) = ms := messagesOf_ext ms
    simpa [messagesOf] using this
  have hgg : ∀ g : UInt8, ((ga.toNat : Int) = (g.toNat : Int)) ↔ ga = g := by
    intro g
    rw [← UInt8.toNat_inj]
    omega
  have key : ∃ order, OrderLine (ga, order) (setLine (Hass.setMessage sv) ga.toNat k) ∧ ordered order = sv.wanted ∧
      ∀ g : UInt8, (((Hass.setMessage sv).messages ga.toNat).filterMap
        (onTopic (topicText .lightState g.toNat).toList)).map Shown.read = if ga = g then [some sv.wanted] else [] := by
    cases sv with
    | turnOff t =>
      refine ⟨.off, ⟨_, k, trivial, hcode, (spelled_iff _ _ _).2 rfl, ?_⟩, rfl, fun g => ?_⟩
      · have hb := byteOf_self ga
        simp only [setLine, SetMessage.call, Hass.setMessage, ClientCall.frame]
        simp [hb, Order.data]
      · have := shown_state g.toNat ga.toNat false 0 0 none false
        simp only [hgg] at this
        exact this
    | turnOn b t =>
      have hbr : 0 ≤ b.getD 255 ∧ b.getD 255 ≤ 255 := by
        cases b with
        | none => decide
        | some b => have := hs.1 b t rfl; exact ⟨by show 0 ≤ b; omega, this.2⟩
      have hcl : clamp (b.getD 255) = b.getD 255 := by unfold clamp; omega
      by_cases hc : clamp (b.getD 255) = 255 ∧ max 0 (Hass.setMessage.seconds t) = 0
      · have hb' : b.getD 255 = 255 := by omega
        refine ⟨.on, ⟨_, k, trivial, hcode, (spelled_iff _ _ _).2 rfl, ?_⟩, ?_, fun g => ?_⟩
        · have hb := byteOf_self ga
          simp only [setLine, SetMessage.call, Hass.setMessage, hc, if_true, and_self, ClientCall.frame]
          simp [hb, Order.data]
        · show Shown.on 255 = .on (b.getD 255)
          rw [hb']
        · have := shown_state g.toNat ga.toNat true 255 0 none true
          simp only [hgg] at this
          simp only [SetMessage.messages, Hass.setMessage, hc, if_true, and_self, eventMessages]
          show _ = if ga = g then [some (Shown.on (b.getD 255))] else []
          rw [hb']
          exact this
      · have hq := getD_quantise (max 0 (Hass.setMessage.seconds t))
        refine ⟨.ramp (rampDurations.idxOf (quantise (max 0 (Hass.setMessage.seconds t)))) (byteOf (clamp (b.getD 255))),
          ⟨_, k, hq.1, hcode, (spelled_iff _ _ _).2 rfl, ?_⟩, ?_, fun g => ?_⟩
        · have hb := byteOf_self ga
          simp only [setLine, SetMessage.call, Hass.setMessage, hc, if_true, if_false, ClientCall.frame]
          simp [hb, Order.data]
        · show Shown.on (((byteOf (clamp (b.getD 255))).toNat : Int)) = .on (b.getD 255)
          rw [byteOf_toNat _ (by omega) (by omega), hcl]
        · have := shown_state g.toNat ga.toNat true (clamp (b.getD 255)) (max 0 (Hass.setMessage.seconds t)) none
            (Lit (.int (clamp (b.getD 255))))
          simp only [hgg] at this
          simp only [SetMessage.messages, Hass.setMessage, hc, if_true, if_false, eventMessages]
          show _ = if ga = g then [some (Shown.on (b.getD 255))] else []
          rw [this, hcl, if_pos trivial]
  obtain ⟨order, h3, h4, h5⟩ := key
  refine ⟨_, _, order, _, hd, ⟨⟨hr.1.1, Nat.mod_lt _ (by decide)⟩, hr.2.1, hr.2.2⟩, hw _ _, h3, h4, fun g => ?_⟩
  rw [hmo]
  exact h5 g

/-- How a deed reaches the daemon. -/
def Hass.step (env : JEnv) (labels : List (Int × Str)) : Deed → DaemonStep
  | .call ga sv => .message (Hass.orders (lightEntity labels ga.toNat)) (utf8 (dumps env sv.message))
  | .told _ _ _ line => .receive line

/-- What may happen. -/
def Hass.deedOk (env : JEnv) : Deed → Prop
  | .call _ sv => sv.Ok ∧ ExactTime env sv
  | .told src ga x line => HeardLine src (ga, x) line

/-- What is asked for. -/
def Hass.asked : Deed → Option (UInt8 × Shown)
  | .call ga sv => some (ga, sv.wanted)
  | .told .. => none

theorem told_shown (u : UniTable) (env : JEnv) (now : Nat → PyDateTime) (hnow : ∀ n, DateTimeOk (now n))
    (labels : List (Int × Str)) (c : Conn Client) (hr : Ready c) (src ga : UInt8) (x : Order) (line : Bytes)
    (hl : HeardLine src (ga, x) line) :
    ∃ o, daemonDo u (loads env) now (.receive line) c = (c, o, .ok ()) ∧ writesOf o = [] ∧
      ∀ g : UInt8, ((messagesOf o).filterMap (onTopic (Hass.states (lightEntity labels g.toNat)))).map Shown.read =
        if ga = g then [some (ordered x)] else [] := by
  obtain ⟨hlen, p, hp, he⟩ := heard_read hl
  refine ⟨_, hear_one u (loads env) now hnow c hr line hlen p _ hp he (order_noClock _ _ _), ?_, fun g => ?_⟩
  · have := writesOf_ext (eventMessages (x.event (some src.toNat) ga))
    simpa [writesOf] using this
  · have h1 : messagesOf (Eff.event (x.event (some src.toNat) ga) ::
        (eventMessages (x.event (some src.toNat) ga)).map Eff.ext) = eventMessages (x.event (some src.toNat) ga) := by
      have := messagesOf_ext (eventMessages (x.event (some src.toNat) ga))
      simpa [messagesOf] using this
    show ((messagesOf (Eff.event (x.event (some src.toNat) ga) :: _)).filterMap _).map _ = _
    rw [h1]
    have hgg : ((ga.toNat : Int) = (g.toNat : Int)) ↔ ga = g := by
      rw [← UInt8.toNat_inj]
      omega
    cases x with
    | off =>
      have := shown_state g.toNat ga.toNat false 0 0 (some src.toNat) false
      simp only [hgg] at this
      exact this
    | on =>
      have := shown_state g.toNat ga.toNat true 255 0 (some src.toNat) true
      simp only [hgg] at this
      exact this
    | ramp k l =>
      have := shown_state g.toNat ga.toNat true l.toNat (rampDurations.getD k 0) (some src.toNat) (Lit (.int l.toNat))
      simp only [hgg] at this
      exact this

theorem carries_append {ls ls' : List Bytes} {xs xs' : List (UInt8 × Order)} (h : Carry ls xs) (h' : Carry ls' xs') :
    Carry (ls ++ ls') (xs ++ xs') := by
  induction h with
  | nil => exact h'
  | cons line x ls xs hl _ ih => exact .cons line x _ _ hl ih

/-- C147: over any history in which lights are operated here and elsewhere, nothing fails; what is sent on
the network is what was asked for, in that order; and every light is shown, one after the other, in the
states it was put in. -/
theorem C147_history (u : UniTable) (env : JEnv) (now : Nat → PyDateTime) (hnow : ∀ n, DateTimeOk (now n))
    (labels : List (Int × Str)) (ds : List Deed) (hd : ∀ d ∈ ds, Hass.deedOk env d) (c : Conn Client) (hr : Ready c)
    (c' : Conn Client) (rs : List (List (Eff MqttEff) × Py Unit))
    (hrun : daemonRun u (loads env) now (ds.map (Hass.step env labels)) c = (c', rs)) :
    Ready c' ∧ (∀ r ∈ rs, r.2 = .ok ()) ∧
    (∃ orders, Carry (rs.flatMap (writesOf ·.1)) orders ∧
      orders.map (fun x => (x.1, ordered x.2)) = ds.filterMap Hass.asked) ∧
    ∀ g : UInt8,
      ((rs.flatMap (messagesOf ·.1)).filterMap (onTopic (Hass.states (lightEntity labels g.toNat)))).map Shown.read =
        (ds.filterMap (Deed.wanted g)).map some := by
  induction ds generalizing c rs with
  | nil =>
    cases hrun
    exact ⟨hr, by simp, ⟨[], .nil, rfl⟩, fun g => rfl⟩
  | cons d ds ih =>
    have hd1 := hd d (List.mem_cons_self ..)
    have hd2 : ∀ x ∈ ds, Hass.deedOk env x := fun x hx => hd x (List.mem_cons_of_mem _ hx)
    have step : ∃ c1 o, daemonDo u (loads env) now (Hass.step env labels d) c = (c1, o, .ok ()) ∧ Ready c1 ∧
        (∃ orders, Carry (writesOf o) orders ∧ orders.map (fun x => (x.1, ordered x.2)) = (Hass.asked d).toList) ∧
        ∀ g : UInt8, ((messagesOf o).filterMap (onTopic (Hass.states (lightEntity labels g.toNat)))).map Shown.read =
          (d.wanted g).toList.map some := by
      cases d with
      | call ga sv =>
        obtain ⟨c1, o, order, line, h1, h2, h3, h4, h5, h6⟩ := C147_operates u env now labels c hr ga sv hd1.1 hd1.2
        refine ⟨c1, o, h1, h2, ⟨[(ga, order)], h3 ▸ .cons _ _ _ _ h4 .nil, ?_⟩, fun g => ?_⟩
        · show [(ga, ordered order)] = [(ga, sv.wanted)]
          rw [h5]
        · rw [h6 g]
          show _ = ((if ga = g then some sv.wanted else none : Option Shown)).toList.map some
          split <;> rfl
      | told src ga x line =>
        obtain ⟨o, h1, h2, h3⟩ := told_shown u env now hnow labels c hr src ga x line hd1
        refine ⟨c, o, h1, hr, ⟨[], h2 ▸ .nil, rfl⟩, fun g => ?_⟩
        rw [h3 g]
        show _ = ((if ga = g then some (ordered x) else none : Option Shown)).toList.map some
        split <;> rfl
    obtain ⟨c1, o, h1, h2, ⟨os, h3, h3'⟩, h4⟩ := step
    have hrs : rs = (o, .ok ()) :: (daemonRun u (loads env) now (ds.map (Hass.step env labels)) c1).2 ∧
        c' = (daemonRun u (loads env) now (ds.map (Hass.step env labels)) c1).1 := by
      simp only [List.map_cons, daemonRun, h1] at hrun
      exact ⟨(congrArg Prod.snd hrun).symm, (congrArg Prod.fst hrun).symm⟩
    obtain ⟨rfl, rfl⟩ := hrs
    obtain ⟨i1, i2, ⟨os', i3, i3'⟩, i4⟩ := ih hd2 c1 h2 _ rfl
    refine ⟨i1, ?_, ⟨os ++ os', ?_, ?_⟩, fun g => ?_⟩
    · intro r hr'
      rcases List.mem_cons.1 hr' with rfl | hr'
      · rfl
      · exact i2 r hr'
    · rw [List.flatMap_cons]
      exact carries_append h3 i3
    · rw [List.map_append, h3', i3', List.filterMap_cons]
      cases Hass.asked d <;> rfl
    · rw [List.flatMap_cons, List.filterMap_append, List.map_append, h4 g, i4 g, List.filterMap_cons]
      cases d.wanted g <;> rfl

/-- C147: so a light is shown as it was last put. -/
theorem C147_last (u : UniTable) (env : JEnv) (now : Nat → PyDateTime) (hnow : ∀ n, DateTimeOk (now n))
    (labels : List (Int × Str)) (ds : List Deed) (hd : ∀ d ∈ ds, Hass.deedOk env d) (c : Conn Client) (hr : Ready c)
    (g : UInt8) :
    shownAfter (Hass.states (lightEntity labels g.toNat))
      ((daemonRun u (loads env) now (ds.map (Hass.step env labels)) c).2.flatMap (messagesOf ·.1)) =
      (ds.filterMap (Deed.wanted g)).getLast? := by
  have h := (C147_history u env now hnow labels ds hd c hr _ _ rfl).2.2.2 g
  unfold shownAfter
  have h' := congrArg List.getLast? h
  rw [List.getLast?_map, List.getLast?_map] at h'
  generalize (List.filterMap (onTopic _) _).getLast? = a at h' ⊢
  cases a with
  | none =>
    cases hb : (ds.filterMap (Deed.wanted g)).getLast? with
    | none => rfl
    | some y => rw [hb] at h'; cases h'
  | some a =>
    cases hb : (ds.filterMap (Deed.wanted g)).getLast? with
    | none => rw [hb] at h'; cases h'
    | some y => rw [hb] at h'; exact Option.some.inj h'

/-- Light 7 as it is found when a label is known. -/
example : (messagesOf (Mqtt.onConnect [(7, "Hall".toList)] {}).2.1)[16]?.bind found =
    some (.light "Hall".toList "cbus_light_7".toList "homeassistant/light/cbus_7/set".toList
      "homeassistant/light/cbus_7/state".toList true) := by decide +kernel

/-- Light 7 is dimmed here over five seconds, switched off by unit 5, and light 8 is switched on here. -/
def someDeeds : List Deed :=
  [.call 7 (.turnOn (some 100) (some (.int 5))), .told 5 7 .off (ascii "050538000107B6\r\n"), .call 8 (.turnOn none none)]

theorem someDeeds_ok : ∀ d ∈ someDeeds, Hass.deedOk exampleEnv d := by
  intro d hd
  simp only [someDeeds, List.mem_cons, List.not_mem_nil, or_false] at hd
  rcases hd with rfl | rfl | rfl
  · refine ⟨⟨?_, ?_⟩, ?_⟩
    · intro b t h
      cases h
      decide
    · intro t h
      cases h
      exact .inl ⟨5, rfl, by decide⟩
    · intro q h
      cases h
  · exact offHeard
  · refine ⟨⟨?_, ?_⟩, ?_⟩
    · intro b t h
      cases h
    · intro t h
      cases h
    · intro q h
      cases h

/-- In between light 7 was shown at 100, in the end it is shown as off and light 8 at 255; light 9 is not known. -/
example :
    let shown := fun (n : Nat) (g : UInt8) => shownAfter (Hass.states (lightEntity [] g.toNat))
      ((daemonRun .ascii (loads exampleEnv) (fun _ => someTime) ((someDeeds.take n).map (Hass.step exampleEnv [])) readyDaemon).2.flatMap
        (messagesOf ·.1))
    shown 1 7 = some (.on 100) ∧ shown 3 7 = some .off ∧ shown 3 8 = some (.on 255) ∧ shown 3 9 = none := by
  have key : ∀ n g, shownAfter (Hass.states (lightEntity [] (g : UInt8).toNat))
      ((daemonRun .ascii (loads exampleEnv) (fun _ => someTime) ((someDeeds.take n).map (Hass.step exampleEnv [])) readyDaemon).2.flatMap
        (messagesOf ·.1)) = ((someDeeds.take n).filterMap (Deed.wanted g)).getLast? := fun n g =>
    C147_last .ascii exampleEnv (fun _ => someTime) (fun _ => someTime_ok) [] (someDeeds.take n)
      (fun d hd => someDeeds_ok d (List.mem_of_mem_take hd)) readyDaemon readyDaemon_ready g
  refine ⟨key 1 7, key 3 7, key 3 8, key 3 9⟩

/-- What is sent when light 7 is dimmed. -/
example : utf8 (dumps exampleEnv (Service.turnOn (some 100) (some (.int 5))).message) =
      ascii "{\"state\": \"ON\", \"transition\": 5, \"brightness\": 100}" ∧
    writesOf (daemonDo .ascii (loads exampleEnv) (fun _ => someTime)
      (Hass.step exampleEnv [] (.call 7 (.turnOn (some 100) (some (.int 5))))) readyDaemon).2.1 =
      [ascii "\\05380012076446h\r"] := by decide +kernel

end CBus.Props
