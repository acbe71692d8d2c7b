import Verif.Props.Topics
import Verif.Props.EndToEnd
import Verif.Props.Number

/-! # C49, C60 – C65, C67: between MQTT and C-Bus -/

namespace CBus.Props
open CBus CBus.Spec

/-! ## Reading a set message -/

theorem truncRat_float (q : Rat) (i : Int)
    (h : (0 ≤ q ∧ (i : Rat) ≤ q ∧ q < i + 1) ∨ (q < 0 ∧ q ≤ i ∧ (i : Rat) - 1 < q)) : truncRat q = i := by
  unfold truncRat
  rcases h with ⟨h0, h1, h2⟩ | ⟨h0, h1, h2⟩
  · rw [if_pos h0]
    have a := Rat.le_floor_iff.2 h1
    have b : q.floor < i + 1 := by
      apply Rat.floor_lt_iff.2
      simpa using h2
    omega
  · rw [if_neg (Rat.not_le.2 h0)]
    have a : -i ≤ (-q).floor := by
      apply Rat.le_floor_iff.2
      rw [Rat.intCast_neg]
      exact Rat.neg_le_neg h1
    have b : (-q).floor < -i + 1 := by
      apply Rat.floor_lt_iff.2
      rw [Rat.intCast_add, Rat.intCast_neg]
      grind
    omega

theorem intOfJson_value (u : UniTable) {v : JVal} {i : Int} (h : IntValue u v i) : u.intOfJson v = .ok i := by
  cases h with
  | int => rfl
  | float q i h => simp only [UniTable.intOfJson, truncRat_float q i h]
  | bool b => rfl
  | str s i h => exact ((C96_decimal u s).1 i).2 h

theorem getInt_member (u : UniTable) {d : List (Str × JVal)} {key : String} {default i : Int}
    (h : Member u d key default i) : Mqtt.getInt u (.obj d) key.toList default = .ok i := by
  unfold Member at h
  unfold Mqtt.getInt
  simp only
  split at h
  · rename_i hd; rw [hd, h]
  · rename_i v hd; rw [hd]; exact intOfJson_value u h

theorem upperStr_ascii (u : UniTable) (s : Str) (h : ∀ c ∈ s, c.toNat < 128) : u.upperStr s = s.map asciiUpper := by
  induction s with
  | nil => rfl
  | cons c s ih =>
    have := ih fun x hx => h x (by simp [hx])
    unfold UniTable.upperStr at this ⊢
    rw [List.flatMap_cons, this, u.ascii_upper c (h c (by simp))]
    rfl

theorem asciiUpper_eq (c : Char) (h : c.toNat < 128) (d : Char) (hd : d = 'O' ∨ d = 'N') :
    asciiUpper c = d ↔ c = d ∨ c.toNat = d.toNat + 32 := by
  have key : ∀ n : Fin 128, (asciiUpper (Char.ofNat n.1) = 'O' ↔ Char.ofNat n.1 = 'O' ∨ (Char.ofNat n.1).toNat = 79 + 32) ∧
      (asciiUpper (Char.ofNat n.1) = 'N' ↔ Char.ofNat n.1 = 'N' ∨ (Char.ofNat n.1).toNat = 78 + 32) := by
    decide +kernel
  have := key ⟨c.toNat, h⟩
  simp only [Char.ofNat_toNat] at this
  rcases hd with rfl | rfl
  · exact this.1
  · exact this.2

theorem upper_on (u : UniTable) (s : Str) (h : ∀ c ∈ s, c.toNat < 128) :
    u.upperStr s = "ON".toList ↔ s ∈ ["ON".toList, "On".toList, "oN".toList, "on".toList] := by
  rw [upperStr_ascii u s h]
  have lo : ∀ c : Char, c.toNat = ('O' : Char).toNat + 32 ↔ c = 'o' := by
    intro c; constructor
    · intro h; have : c.toNat = ('o' : Char).toNat := h; exact Char.toNat_inj.1 this
    · rintro rfl; rfl
  have ln : ∀ c : Char, c.toNat = ('N' : Char).toNat + 32 ↔ c = 'n' := by
    intro c; constructor
    · intro h; have : c.toNat = ('n' : Char).toNat := h; exact Char.toNat_inj.1 this
    · rintro rfl; rfl
  have e1 : "ON".toList = ['O', 'N'] := by decide
  have e2 : "On".toList = ['O', 'n'] := by decide
  have e3 : "oN".toList = ['o', 'N'] := by decide
  have e4 : "on".toList = ['o', 'n'] := by decide
  rw [e1, e2, e3, e4]
  match s with
  | [] => simp
  | [a] => simp
  | [a, b] =>
    have ha := asciiUpper_eq a (h a (by simp)) 'O' (.inl rfl)
    have hb := asciiUpper_eq b (h b (by simp)) 'N' (.inr rfl)
    rw [lo] at ha
    rw [ln] at hb
    simp only [List.map_cons, List.map_nil, List.cons.injEq, and_true, ha, hb, List.mem_cons, List.not_mem_nil, or_false]
    constructor
    · rintro ⟨rfl | rfl, rfl | rfl⟩ <;> simp
    · rintro (⟨rfl, rfl⟩ | ⟨rfl, rfl⟩ | ⟨rfl, rfl⟩ | ⟨rfl, rfl⟩) <;> simp
  | a :: b :: c :: r => simp

theorem stateOn_iff (u : UniTable) (s : Str) : StateOn u s ↔ u.upperStr s = "ON".toList := by
  unfold StateOn
  by_cases h : ∃ c ∈ s, 128 ≤ c.toNat
  · have hn : s ∉ ["ON".toList, "On".toList, "oN".toList, "on".toList] := by
      intro hm
      obtain ⟨c, hc, hc'⟩ := h
      have : ∀ t ∈ ["ON".toList, "On".toList, "oN".toList, "on".toList], ∀ c ∈ t, c.toNat < 128 := by decide
      have := this s hm c hc
      omega
    simp only [hn, false_or, h, true_and]
    rfl
  · rw [upper_on u s (fun c hc => by
      apply Decidable.byContradiction
      intro h'
      exact h ⟨c, hc, by omega⟩)]
    simp only [h, false_and, or_false]

theorem gt255 (i : Int) : (PyNum.int i).gtRat 255 = decide (255 < i) := by
  unfold PyNum.gtRat
  have : ((255 : Rat) < (i : Rat)) ↔ 255 < i := by
    have := Rat.intCast_lt_intCast (a := 255) (b := i)
    simpa using this
  simp only [this]

/-- What is read from a message: a negative brightness becomes the float 0. -/
theorem readPayload_means (u : UniTable) {v : JVal} {m : SetMessage} (h : Means u v m) :
    Mqtt.readPayload u v = .ok (m.on, if m.brightness < 0 then .flt 0 else .int (clamp m.brightness),
      max 0 m.transition) := by
  obtain ⟨d, s, rfl, h1, h3, h4, h5⟩ := h
  have hs : Mqtt.getState (.obj d) = .ok (.str s) := by unfold Mqtt.getState; simp only [h1]
  have hon : (u.upperStr s == "ON".toList) = m.on := by
    rw [stateOn_iff] at h3
    cases hm : m.on with
    | true => rw [h3.1 hm]; exact beq_self_eq_true _
    | false =>
      rw [hm] at h3
      simpa using h3
  unfold Mqtt.readPayload
  rw [hs, getInt_member u h4, getInt_member u h5]
  simp only [bind, Except.bind, pure, Except.pure, hon]
  have hmax : (if m.transition < 0 then 0 else m.transition) = max 0 m.transition := by
    split <;> omega
  rw [hmax]
  by_cases hb : m.brightness < 0
  · simp only [hb, if_true]
    rw [if_neg (by decide)]
  · simp only [hb, if_false]
    rw [gt255]
    by_cases hc : 255 < m.brightness
    · have : clamp m.brightness = 255 := by unfold clamp; omega
      simp [hc, this]
    · have : clamp m.brightness = m.brightness := by unfold clamp; omega
      simp [hc, this]

/-! ## What is no set message -/

theorem intOfJson_error (u : UniTable) {v : JVal} {e : PyErr} (h : IntError u v e) : u.intOfJson v = .error e := by
  cases h with
  | null => rfl
  | arr l => rfl
  | obj d => rfl
  | nan => rfl
  | inf neg => rfl
  | str s h => exact (C96_decimal u s).2 h

theorem truncRat_spec (q : Rat) :
    (0 ≤ q ∧ (truncRat q : Rat) ≤ q ∧ q < truncRat q + 1) ∨ (q < 0 ∧ q ≤ truncRat q ∧ (truncRat q : Rat) - 1 < q) := by
  unfold truncRat
  by_cases h : 0 ≤ q
  · rw [if_pos h]
    exact .inl ⟨h, Rat.floor_le q, by simpa using Rat.lt_floor_add_one q⟩
  · rw [if_neg h]
    refine .inr ⟨Rat.not_le.1 h, ?_, ?_⟩
    · have := Rat.floor_le (-q)
      rw [Rat.intCast_neg]
      grind
    · have := Rat.lt_floor_add_one (-q)
      rw [Rat.intCast_neg]
      grind

/-- Every JSON value stands for an integer or raises. -/
theorem intValue_or (u : UniTable) (v : JVal) : (∃ i, IntValue u v i) ∨ ∃ e, IntError u v e := by
  cases v with
  | null => exact .inr ⟨_, .null⟩
  | bool b => exact .inl ⟨_, .bool b⟩
  | num n =>
    cases n with
    | int i => exact .inl ⟨_, .int i⟩
    | flt q => exact .inl ⟨_, .float q _ (truncRat_spec q)⟩
    | nan => exact .inr ⟨_, .nan⟩
    | inf neg => exact .inr ⟨_, .inf neg⟩
  | str s =>
    by_cases h : ∃ i, DecimalText u s i
    · obtain ⟨i, h⟩ := h
      exact .inl ⟨i, .str s i h⟩
    · exact .inr ⟨_, .str s fun i hi => h ⟨i, hi⟩⟩
  | arr l => exact .inr ⟨_, .arr l⟩
  | obj d => exact .inr ⟨_, .obj d⟩

theorem member_or (u : UniTable) (d : List (Str × JVal)) (key : String) (default : Int) :
    (∃ i, Member u d key default i) ∨ ∃ x e, dictGet d key.toList = some x ∧ IntError u x e := by
  unfold Member
  cases h : dictGet d key.toList with
  | none => exact .inl ⟨_, rfl⟩
  | some v =>
    rcases intValue_or u v with ⟨i, hi⟩ | ⟨e, he⟩
    · exact .inl ⟨i, hi⟩
    · exact .inr ⟨v, e, rfl, he⟩

/-- Every JSON value is a message or raises. -/
theorem means_or_error (u : UniTable) (v : JVal) : (∃ m, Means u v m) ∨ ∃ e, MessageError u v e := by
  by_cases hd : ∃ d, v = .obj d
  · obtain ⟨d, rfl⟩ := hd
    cases hs : dictGet d "state".toList with
    | none => exact .inr ⟨_, .noState d hs⟩
    | some x =>
      by_cases hx : ∃ s, x = .str s
      · obtain ⟨s, rfl⟩ := hx
        rcases member_or u d "brightness" 255 with ⟨b, hb⟩ | ⟨x, e, h1, h2⟩
        · rcases member_or u d "transition" 0 with ⟨t, ht⟩ | ⟨x, e, h1, h2⟩
          · by_cases ho : StateOn u s
            · exact .inl ⟨⟨true, b, t⟩, d, s, rfl, hs, ⟨fun _ => ho, fun _ => rfl⟩, hb, ht⟩
            · exact .inl ⟨⟨false, b, t⟩, d, s, rfl, hs, ⟨(fun h => nomatch h), fun h => absurd h ho⟩, hb, ht⟩
          · exact .inr ⟨e, .transition d s hs b hb x e h1 h2⟩
        · exact .inr ⟨e, .brightness d s hs x e h1 h2⟩
      · exact .inr ⟨_, .state d x hs fun s h => hx ⟨s, h⟩⟩
  · exact .inr ⟨_, .notObject v fun d h => hd ⟨d, h⟩⟩

theorem readPayload_error (u : UniTable) {v : JVal} {e : PyErr} (h : MessageError u v e) :
    Mqtt.readPayload u v = .error e := by
  unfold Mqtt.readPayload
  cases h with
  | notObject v h =>
    cases v with
    | obj d => exact absurd rfl (h d)
    | _ => rfl
  | noState d h => simp only [Mqtt.getState, h, bind, Except.bind]
  | state d x h hx =>
    simp only [Mqtt.getState, h, bind, Except.bind]
    cases x with
    | str s => exact absurd rfl (hx s)
    | _ => rfl
  | brightness d s h x e hb he =>
    have : Mqtt.getInt u (.obj d) "brightness".toList 255 = .error e := by
      simp only [Mqtt.getInt, hb, intOfJson_error u he]
    simp only [Mqtt.getState, h, bind, Except.bind, pure, Except.pure, this]
  | transition d s h b hb x e ht he =>
    have : Mqtt.getInt u (.obj d) "transition".toList 0 = .error e := by
      simp only [Mqtt.getInt, ht, intOfJson_error u he]
    simp only [Mqtt.getState, h, bind, Except.bind, pure, Except.pure, getInt_member u hb, this]

/-! ## Acting on it -/

theorem stateMessage_eq (ga : Int) (on : Bool) (level : PyNum) (d : Int) (src : Option Int) (s : Client) :
    Mqtt.publish (stateTopic ga) (Mqtt.stateDict (if on then "ON".toList else "OFF".toList) level d src) s =
      (s, [.ext (stateMessage ga on level d src)], .ok ()) := by
  have h : stateTopic ga = (topicText .lightState ga).toList := C59_text .lightState ga
  unfold Mqtt.publish Mqtt.stateDict Proc.emit stateMessage
  rw [h]
  cases src <;> rfl

theorem sensorMessage_eq (ga : Int) (on : Bool) (s : Client) :
    Mqtt.publishBinarySensor ga on s = (s, [.ext (sensorMessage ga on)], .ok ()) := by
  have h : binSensorStateTopic ga = (topicText .sensorState ga).toList := C59_text .sensorState ga
  unfold Mqtt.publishBinarySensor Proc.emit sensorMessage
  rw [h]

theorem publish_on (src : Option Int) (ga : Int) (s : Client) :
    Mqtt.lightingGroupOn src ga s = (s, (eventMessages (.lightingOn src ga)).map .ext, .ok ()) := by
  have h := stateMessage_eq ga true (.int 255) 0 src s
  simp only [if_true] at h
  simp only [Mqtt.lightingGroupOn, Proc.andThen, h, sensorMessage_eq]
  rfl

theorem publish_off (src : Option Int) (ga : Int) (s : Client) :
    Mqtt.lightingGroupOff src ga s = (s, (eventMessages (.lightingOff src ga)).map .ext, .ok ()) := by
  have h := stateMessage_eq ga false (.int 0) 0 src s
  simp only [Bool.false_eq_true, if_false] at h
  simp only [Mqtt.lightingGroupOff, Proc.andThen, h, sensorMessage_eq]
  rfl

theorem publish_ramp (src : Option Int) (ga d : Int) (l : PyNum) (s : Client) :
    Mqtt.lightingGroupRamp src ga d l s = (s, (eventMessages (.lightingRamp src ga d l)).map .ext, .ok ()) := by
  have h := stateMessage_eq ga true l d src s
  simp only [if_true] at h
  simp only [Mqtt.lightingGroupRamp, Proc.andThen, h, sensorMessage_eq]
  rfl

/-- The call that `on_message` makes, then the republication. -/
theorem actOnPayload_call (now : Nat → PyDateTime) (ga : Int) (m : SetMessage) (hb : 0 ≤ m.brightness ∨ m.on = false)
    (s : Client) :
    Mqtt.actOnPayload ga m.on (if m.brightness < 0 then .flt 0 else .int (clamp m.brightness)) (max 0 m.transition) s =
      Proc.andThen (runCall now (m.call ga)) (fun _ t => (t, (m.messages ga).map .ext, .ok ())) s := by
  have hon : (fun (_ : Option UInt8) => Mqtt.lightingGroupOn none ga) =
      fun _ t => (t, (eventMessages (.lightingOn none ga)).map .ext, .ok ()) := by
    funext _ t; exact publish_on none ga t
  have hoff : (fun (_ : Option UInt8) => Mqtt.lightingGroupOff none ga) =
      fun _ t => (t, (eventMessages (.lightingOff none ga)).map .ext, .ok ()) := by
    funext _ t; exact publish_off none ga t
  have hramp : ∀ d l, (fun (_ : Option UInt8) => Mqtt.lightingGroupRamp none ga d l) =
      fun _ t => (t, (eventMessages (.lightingRamp none ga d l)).map .ext, .ok ()) := by
    intro d l; funext _ t; exact publish_ramp none ga d l t
  unfold Mqtt.actOnPayload SetMessage.call SetMessage.messages
  cases hm : m.on with
  | false =>
    simp only [Bool.false_eq_true, if_false]
    rw [hoff]; rfl
  | true =>
    rw [hm] at hb
    have hb' : ¬ m.brightness < 0 := by rcases hb with h | h; omega; cases h
    simp only [if_true, hb', if_false, PyNum.int.injEq]
    by_cases hc : clamp m.brightness = 255 ∧ max 0 m.transition = 0
    · rw [if_pos hc, if_pos hc, if_pos hc, hon]; rfl
    · rw [if_neg hc, if_neg hc, if_neg hc, hramp]; rfl

/-- A topic on which messages are acted on, and the group address in it. -/
def IsSetTopic (u : UniTable) (topic : Str) (ga : Int) : Prop :=
  "homeassistant/light/cbus_".toList <+: topic ∧ "/set".toList <:+ topic ∧ getTopicGroupAddress u topic = .ok ga

theorem setTopic_isSetTopic (u : UniTable) (ga : Int) (hg : IsByte ga) :
    IsSetTopic u (topicText .lightSet ga).toList ga := by
  have h := C59_inverse u ga .lightSet (by simp)
  rw [if_pos hg] at h
  refine ⟨?_, ?_, h⟩ <;> rw [← C59_text]
  · exact ⟨intStr ga ++ topicSetSuffix, (List.append_assoc _ _ _).symm⟩
  · exact ⟨lightTopicPrefix ++ intStr ga, rfl⟩

theorem address_byte {u : UniTable} {topic : Str} {ga : Int} (h : getTopicGroupAddress u topic = .ok ga) : IsByte ga := by
  unfold getTopicGroupAddress at h
  repeat' split at h
  all_goals first | cases h; done | skip
  rename_i hc
  cases h
  apply Decidable.byContradiction
  intro hb
  have : checkGa ga = .error .valueError := by
    unfold checkGa validateGa
    rw [if_neg]
    intro h
    simp at h
    exact hb ⟨by omega, by omega⟩
  rw [this] at hc
  cases hc

theorem address_error {u : UniTable} {topic : Str} {e : PyErr} (h : getTopicGroupAddress u topic = .error e) :
    e = .valueError := by
  unfold getTopicGroupAddress at h
  repeat' split at h
  · simp_all
  · rename_i hi
    unfold UniTable.intOf at hi
    split at hi <;> simp_all
  · rename_i hc
    unfold checkGa at hc
    split at hc <;> simp_all
  · cases h

theorem onMessage_topic {u : UniTable} {loads : Bytes → Option JVal} {topic : Str} {ga : Int} (h : IsSetTopic u topic ga)
    (payload : Bytes) (v : JVal) (hl : loads payload = some v) :
    Mqtt.onMessage u loads topic payload =
      match Mqtt.readPayload u v with
      | .error e => Proc.raise e
      | .ok (on, brightness, transition) => Mqtt.actOnPayload ga on brightness transition := by
  obtain ⟨h1, h2, h3⟩ := h
  have h1' : topic.startsWith lightTopicPrefix = true := List.isPrefixOf_iff_prefix.2 h1
  have h2' : topic.endsWith topicSetSuffix = true := List.isSuffixOf_iff_suffix.2 h2
  unfold Mqtt.onMessage
  rw [h1', h2', h3]
  simp only [Bool.and_self, Bool.not_true, Bool.false_eq_true, if_false, hl]
  cases Mqtt.readPayload u v <;> rfl

theorem onMessage_means (now : Nat → PyDateTime) {u : UniTable} {loads : Bytes → Option JVal} {topic : Str} {ga : Int}
    (h : IsSetTopic u topic ga) (payload : Bytes) {v : JVal} (hl : loads payload = some v) {m : SetMessage} (hm : Means u v m)
    (hb : 0 ≤ m.brightness ∨ m.on = false) (s : Client) :
    Mqtt.onMessage u loads topic payload s =
      Proc.andThen (runCall now (m.call ga)) (fun _ t => (t, (m.messages ga).map .ext, .ok ())) s := by
  rw [onMessage_topic h payload v hl, readPayload_means u hm]
  exact actOnPayload_call now ga m hb s

theorem call_ok (m : SetMessage) (ga : Int) (hg : IsByte ga) : (m.call ga).Ok ∧ (m.call ga).TimeOk := by
  have hc : IsByte (clamp m.brightness) := by unfold clamp IsByte; omega
  unfold SetMessage.call
  repeat' split
  all_goals simp [ClientCall.Ok, ClientCall.TimeOk, LevelNumOk, hg, hc]

theorem call_frame (m : SetMessage) (ga : Int) (t t' : PyDateTime) (wd wd' : PyDate → Nat) :
    (m.call ga).frame t wd = (m.call ga).frame t' wd' := by
  unfold SetMessage.call
  repeat' split
  all_goals rfl

/-- A date and time that exists. -/
def someTime : PyDateTime := ⟨⟨2024, 1, 1⟩, ⟨0, 0, 0, 0⟩⟩

theorem someTime_ok : DateTimeOk someTime := by
  refine ⟨?_, ?_⟩ <;> decide

/-! ## C60 -/

/-- The line for a set message. -/
def setLine (m : SetMessage) (ga : Int) (c : UInt8) : Bytes :=
  0x5c :: b16encode (addChecksum ((m.call ga).frame someTime PyDate.weekday)) ++ [c, 0x0d]

theorem act_up (ga : Int) (hg : IsByte ga) (m : SetMessage) (hb : 0 ≤ m.brightness ∨ m.on = false) (s : Client) (hu : Up s) :
    ∃ c, cycleFrom s.nextConf 1 = [c] ∧
      Mqtt.actOnPayload ga m.on (if m.brightness < 0 then .flt 0 else .int (clamp m.brightness)) (max 0 m.transition) s =
        ({ s with nextConf := (s.nextConf + 1) % 20 }, .write (setLine m ga c) :: (m.messages ga).map .ext, .ok ()) := by
  obtain ⟨c, h1, h2⟩ := code_cycle hu.2
  refine ⟨c, h2, ?_⟩
  have hok := call_ok m ga hg
  have hr := run_ok (π := MqttEff) (fun _ => someTime) PyDate.weekday (fun d hd => isWeekday_weekday d hd) (fun _ => someTime_ok)
    (m.call ga) hok.1 hok.2 s hu.1 c h1
  have hcn : ¬ (m.call ga = .clockNow) := by
    unfold SetMessage.call
    repeat' split
    all_goals simp
  rw [actOnPayload_call (fun _ => someTime) ga m hb s]
  simp only [Proc.andThen, hr, hcn, if_false, Nat.add_zero, setLine, List.cons_append, List.nil_append]

/-- C60: a set message for a group address makes a connected `CBusHandler` write
exactly one line, the command it asks for, for exactly that group address, and then
publishes exactly the state and binary sensor messages for it.

What is missing: a negative brightness in an `ON` message, see C61. -/
theorem C60_acts_partial (u : UniTable) (loads : Bytes → Option JVal) (topic : Str) (ga : Int)
    (ht : IsSetTopic u topic ga) (payload : Bytes) (v : JVal) (hl : loads payload = some v) (m : SetMessage)
    (hm : Means u v m) (hb : 0 ≤ m.brightness ∨ m.on = false) (s : Client) (hu : Up s) :
    ∃ c, cycleFrom s.nextConf 1 = [c] ∧
      Mqtt.onMessage u loads topic payload s =
        ({ s with nextConf := (s.nextConf + 1) % 20 }, .write (setLine m ga c) :: (m.messages ga).map .ext, .ok ()) := by
  rw [onMessage_topic ht payload v hl, readPayload_means u hm]
  exact act_up ga (address_byte ht.2.2) m hb s hu

/-- C60: a message on any other topic, or with an invalid group address, or whose
payload is not JSON, does nothing at all. -/
theorem C60_ignored (u : UniTable) (loads : Bytes → Option JVal) (topic : Str) (payload : Bytes) (s : Client)
    (h : (∀ ga, ¬ IsSetTopic u topic ga) ∨ loads payload = none) :
    Mqtt.onMessage u loads topic payload s = (s, [], .ok ()) := by
  unfold Mqtt.onMessage
  by_cases hp : (topic.startsWith lightTopicPrefix && topic.endsWith topicSetSuffix) = true
  · simp only [hp, Bool.not_true, Bool.false_eq_true, if_false]
    simp only [Bool.and_eq_true] at hp
    cases hg : getTopicGroupAddress u topic with
    | error e => rw [address_error hg]; rfl
    | ok ga =>
      rcases h with h | h
      · exact absurd ⟨List.isPrefixOf_iff_prefix.1 hp.1, List.isSuffixOf_iff_suffix.1 hp.2, hg⟩ (h ga)
      · simp only [h]; rfl
  · simp only [Bool.not_eq_true] at hp
    simp only [hp, Bool.not_false, if_true]; rfl

/-- C60: a payload that is JSON but no message raises, with an exception that depends
on what is wrong with it, and nothing is written or published. -/
theorem C60_raises (u : UniTable) (loads : Bytes → Option JVal) (topic : Str) (ga : Int) (ht : IsSetTopic u topic ga)
    (payload : Bytes) (v : JVal) (hl : loads payload = some v) (e : PyErr) (he : MessageError u v e) (s : Client) :
    Mqtt.onMessage u loads topic payload s = (s, [], .error e) := by
  rw [onMessage_topic ht payload v hl, readPayload_error u he]
  rfl

/-- C60: every JSON value is a message or raises, and never both. -/
theorem C60_every (u : UniTable) (v : JVal) :
    ((∃ m, Means u v m) ∨ ∃ e, MessageError u v e) ∧ ∀ m e, Means u v m → ¬ MessageError u v e := by
  refine ⟨means_or_error u v, fun m e hm he => ?_⟩
  have h1 := readPayload_means u hm
  rw [readPayload_error u he] at h1
  cases h1

theorem actOnPayload_negative (ga : Int) (hg : IsByte ga) (t : Int) (s : Client) :
    Mqtt.actOnPayload ga true (.flt 0) t s = (s, [], .error (if s.connected then .typeError else .ioError)) := by
  have h := run_raises (π := MqttEff) (fun _ => someTime) (fun _ => someTime_ok) (.ramp ga t (.flt 0)) trivial s
    (if s.connected then .typeError else .ioError) (by
      simp only [ClientCall.raises, hg, not_true, if_false, levelRaises]
      cases s.connected
      · rfl
      · decide +kernel)
  have : Mqtt.actOnPayload ga true (.flt 0) t = Proc.andThen (runCall (fun _ => someTime) (.ramp ga t (.flt 0)))
      (fun _ => Mqtt.lightingGroupRamp none ga t (.flt 0)) := by
    unfold Mqtt.actOnPayload
    rw [if_pos rfl, if_neg (by simp)]
    rfl
  simp only [this, Proc.andThen, h]
  simp

/-- C60: whatever arrives on whatever topic, `on_message` does nothing (and maybe
raises), or exactly what C60 says for the group address in the topic and the message in
the payload. -/
theorem C60_nothing_else (u : UniTable) (loads : Bytes → Option JVal) (topic : Str) (payload : Bytes) (s : Client)
    (hu : Up s) :
    (∃ r, Mqtt.onMessage u loads topic payload s = (s, [], r)) ∨
    ∃ ga c v, ∃ m : SetMessage, IsSetTopic u topic ga ∧ loads payload = some v ∧ Means u v m ∧
      cycleFrom s.nextConf 1 = [c] ∧
      Mqtt.onMessage u loads topic payload s =
        ({ s with nextConf := (s.nextConf + 1) % 20 }, .write (setLine m ga c) :: (m.messages ga).map .ext, .ok ()) := by
  by_cases hi : (∀ ga, ¬ IsSetTopic u topic ga) ∨ loads payload = none
  · exact .inl ⟨_, C60_ignored u loads topic payload s hi⟩
  · simp only [not_or, Classical.not_forall, Classical.not_not] at hi
    obtain ⟨⟨ga, ht⟩, hl⟩ := hi
    cases hv : loads payload with
    | none => exact absurd hv hl
    | some v =>
      rcases means_or_error u v with ⟨m, hm⟩ | ⟨e, he⟩
      · by_cases hb : 0 ≤ m.brightness ∨ m.on = false
        · obtain ⟨c, h1, h2⟩ := C60_acts_partial u loads topic ga ht payload v hv m hm hb s hu
          exact .inr ⟨ga, c, v, m, ht, rfl, hm, h1, h2⟩
        · simp only [not_or, Int.not_le, Bool.not_eq_false] at hb
          left
          rw [onMessage_topic ht payload v hv, readPayload_means u hm]
          simp only [hb.1, hb.2, if_true]
          exact ⟨_, actOnPayload_negative ga (address_byte ht.2.2) _ s⟩
      · exact .inl ⟨_, C60_raises u loads topic ga ht payload v hv e he s⟩

/-- C60: while the C-Bus connection is down, every message raises `IOError`, and nothing
is changed, written or published. -/
theorem C60_disconnected (u : UniTable) (loads : Bytes → Option JVal) (topic : Str) (ga : Int)
    (ht : IsSetTopic u topic ga) (payload : Bytes) (v : JVal) (hl : loads payload = some v) (m : SetMessage)
    (hm : Means u v m) (s : Client) (hc : s.connected = false) :
    Mqtt.onMessage u loads topic payload s = (s, [], .error .ioError) := by
  rw [onMessage_topic ht payload v hl, readPayload_means u hm]
  by_cases hb : 0 ≤ m.brightness ∨ m.on = false
  · have hok := call_ok m ga (address_byte ht.2.2)
    have h := run_raises (π := MqttEff) (fun _ => someTime) (fun _ => someTime_ok) (m.call ga) hok.2 s .ioError (by
      rw [hc]
      have hg := address_byte ht.2.2
      unfold SetMessage.call
      repeat' split
      all_goals simp [ClientCall.raises, groupsRaise, hg])
    have hcn : ¬ (m.call ga = .clockNow) := by
      unfold SetMessage.call
      repeat' split
      all_goals simp
    show Mqtt.actOnPayload ga m.on _ _ s = _
    rw [actOnPayload_call (fun _ => someTime) ga m hb s]
    simp only [Proc.andThen, h, hcn, if_false, Nat.add_zero]
  · simp only [not_or, Int.not_le, Bool.not_eq_false] at hb
    simp only [hb.1, hb.2, if_true]
    rw [actOnPayload_negative ga (address_byte ht.2.2) _ s, hc]
    rfl

/-- A message with text members, for the examples. -/
def exampleSet : JVal :=
  .obj [("state".toList, .str "On".toList), ("brightness".toList, .num (.int 100)), ("transition".toList, .num (.flt (9/2)))]

theorem exampleSet_means (u : UniTable) : Means u exampleSet { on := true, brightness := 100, transition := 4 } := by
  refine ⟨_, "On".toList, rfl, by decide +kernel, ⟨fun _ => .inl (by decide), fun _ => rfl⟩, ?_, ?_⟩
  · show Member u _ "brightness" 255 100
    have : dictGet [("state".toList, JVal.str "On".toList), ("brightness".toList, .num (.int 100)),
        ("transition".toList, .num (.flt (9/2)))] "brightness".toList = some (.num (.int 100)) := by decide +kernel
    unfold Member; rw [this]; exact .int 100
  · show Member u _ "transition" 0 4
    have : dictGet [("state".toList, JVal.str "On".toList), ("brightness".toList, .num (.int 100)),
        ("transition".toList, .num (.flt (9/2)))] "transition".toList = some (.num (.flt (9/2))) := by decide +kernel
    unfold Member; rw [this]; exact .float _ 4 (.inl (by decide +kernel))

example : (Mqtt.onMessage .ascii (fun _ => some exampleSet) "homeassistant/light/cbus_7/set".toList []
      { connected := true, nextConf := 19 }).2 =
    ([.write (ascii "\\0538000A07644Eg\r"),
      .ext (.publish "homeassistant/light/cbus_7/state".toList
        (.json (.obj [("state".toList, .str "ON".toList), ("brightness".toList, .num (.int 100)),
          ("transition".toList, .num (.int 4)), ("cbus_source_addr".toList, .null)])) 1 true),
      .ext (.publish "homeassistant/binary_sensor/cbus_7/state".toList (.text "ON".toList) 1 true)], .ok ()) := by
  decide +kernel

/-- A topic nobody asked for is acted on. -/
example : (Mqtt.onMessage .ascii (fun _ => some exampleSet) "homeassistant/light/cbus_+7/dimmer/set".toList []
      { connected := true, nextConf := 19 }).2.1.head? = some (.write (ascii "\\0538000A07644Eg\r")) := by decide +kernel

/-- A payload that is JSON but not a message raises. -/
example : (Mqtt.onMessage .ascii (fun _ => some (.num (.int 1))) "homeassistant/light/cbus_7/set".toList []
      { connected := true }).2 = ([], .error .typeError) := by decide +kernel

/-! ## C61 -/

/-- The message with its numbers in range. -/
def _root_.CBus.Spec.SetMessage.inRange (m : SetMessage) : SetMessage :=
  { m with brightness := clamp m.brightness, transition := max 0 m.transition }

/-- C61 in full: every message behaves as if its brightness and transition were
clamped. -/
def C61_claim : Prop :=
  ∀ (u : UniTable) (loads : Bytes → Option JVal) (topic : Str) (ga : Int), IsSetTopic u topic ga →
  ∀ (payload payload' : Bytes) (v v' : JVal), loads payload = some v → loads payload' = some v' →
  ∀ (m : SetMessage), Means u v m → Means u v' m.inRange →
  ∀ s : Client, Mqtt.onMessage u loads topic payload s = Mqtt.onMessage u loads topic payload' s

/-- C61 for a brightness that is not negative (and every brightness in an `OFF`
message), and every transition.

What is missing: a negative brightness in an `ON` message, see `C61_false`. -/
theorem C61_clamped_partial (u : UniTable) (loads : Bytes → Option JVal) (topic : Str) (ga : Int)
    (ht : IsSetTopic u topic ga) (payload payload' : Bytes) (v v' : JVal) (hl : loads payload = some v)
    (hl' : loads payload' = some v') (m : SetMessage) (hm : Means u v m) (hm' : Means u v' m.inRange)
    (hb : 0 ≤ m.brightness ∨ m.on = false) (s : Client) :
    Mqtt.onMessage u loads topic payload s = Mqtt.onMessage u loads topic payload' s := by
  have hcc : clamp (clamp m.brightness) = clamp m.brightness := by unfold clamp; omega
  have hmm : max 0 (max 0 m.transition) = max 0 m.transition := by omega
  have hb' : 0 ≤ m.inRange.brightness ∨ m.inRange.on = false := .inl (by unfold SetMessage.inRange clamp; simp only; omega)
  rw [onMessage_means (fun _ => someTime) ht payload hl hm hb s,
    onMessage_means (fun _ => someTime) ht payload' hl' hm' hb' s]
  unfold SetMessage.call SetMessage.messages SetMessage.inRange
  simp only [hcc, hmm]

/-- C61: with a negative brightness an `ON` message raises `TypeError` (or `IOError`
without a connection), and nothing is written or published. -/
theorem C61_negative (u : UniTable) (loads : Bytes → Option JVal) (topic : Str) (ga : Int)
    (ht : IsSetTopic u topic ga) (payload : Bytes) (v : JVal) (hl : loads payload = some v) (m : SetMessage)
    (hm : Means u v m) (hb : m.brightness < 0) (ho : m.on = true) (s : Client) :
    Mqtt.onMessage u loads topic payload s = (s, [], .error (if s.connected then .typeError else .ioError)) := by
  rw [onMessage_topic ht payload v hl, readPayload_means u hm, ho]
  simp only [hb, if_true]
  exact actOnPayload_negative ga (address_byte ht.2.2) _ s

/-- An `ON` message with the given brightness. -/
def onWith (b : Int) : JVal := .obj [("state".toList, .str "ON".toList), ("brightness".toList, .num (.int b))]

theorem onWith_means (u : UniTable) (b : Int) : Means u (onWith b) { on := true, brightness := b } := by
  have k1 : ¬ ("state".toList = "brightness".toList) := by decide +kernel
  have k2 : ¬ ("state".toList = "transition".toList) := by decide +kernel
  have k3 : ¬ ("brightness".toList = "transition".toList) := by decide +kernel
  refine ⟨_, "ON".toList, rfl, ?_, ⟨fun _ => .inl (by simp), fun _ => rfl⟩, ?_, ?_⟩
  · simp only [dictGet, List.find?, decide_true, Option.map_some]
  · simp only [Member, dictGet, List.find?, k1, decide_false, decide_true, Option.map_some]
    exact .int b
  · simp only [Member, dictGet, List.find?, k2, k3, decide_false, Option.map_none]

/-- C61 is false: brightness -1 becomes the float `0.`, which cannot be encoded; the
message raises `TypeError` instead of ramping to zero. -/
theorem C61_false : ¬ C61_claim := by
  intro h
  have := h .ascii (fun b => some (onWith (if b = [] then -1 else 0))) "homeassistant/light/cbus_7/set".toList 7
    (by refine ⟨?_, ?_, ?_⟩ <;> decide +kernel) [] [1] _ _ rfl rfl { on := true, brightness := -1 }
    (onWith_means _ (-1)) (onWith_means _ 0) { connected := true }
  revert this
  decide +kernel

/-- The claim of C60, also for a negative brightness. -/
def C60_claim : Prop :=
  ∀ (u : UniTable) (loads : Bytes → Option JVal) (topic : Str) (ga : Int), IsSetTopic u topic ga →
  ∀ (payload : Bytes) (v : JVal), loads payload = some v → ∀ (m : SetMessage), Means u v m → ∀ s : Client, Up s →
    ∃ c, cycleFrom s.nextConf 1 = [c] ∧
      Mqtt.onMessage u loads topic payload s =
        ({ s with nextConf := (s.nextConf + 1) % 20 }, .write (setLine m.inRange ga c) :: (m.inRange.messages ga).map .ext, .ok ())

/-- C60 is false of the code for the same reason as C61. -/
theorem C60_false : ¬ C60_claim := by
  intro h
  obtain ⟨c, -, h2⟩ := h .ascii (fun _ => some (onWith (-1))) "homeassistant/light/cbus_7/set".toList 7
    (by refine ⟨?_, ?_, ?_⟩ <;> decide +kernel) [] _ rfl { on := true, brightness := -1 }
    (onWith_means _ (-1)) { connected := true } ⟨rfl, by decide⟩
  have h3 : (Mqtt.onMessage .ascii (fun _ => some (onWith (-1))) "homeassistant/light/cbus_7/set".toList []
      { connected := true }).2.2 = .error .typeError := by decide +kernel
  rw [h2] at h3
  cases h3

example : (Mqtt.onMessage .ascii (fun _ => some (onWith (-1))) "homeassistant/light/cbus_7/set".toList []
      { connected := true }).2 = ([], .error .typeError) ∧
    (Mqtt.onMessage .ascii (fun _ => some (onWith 0)) "homeassistant/light/cbus_7/set".toList []
      { connected := true }).2.1.head? = some (.write (ascii "\\053800020700BAh\r")) ∧
    (Mqtt.onMessage .ascii (fun _ => some (onWith 300)) "homeassistant/light/cbus_7/set".toList []
      { connected := true }).2.1.head? = some (.write (ascii "\\053800790743h\r")) := by decide +kernel

end CBus.Props
