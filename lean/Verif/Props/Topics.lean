import Verif.Model.Mqtt
import Verif.Spec.Mqtt
import Verif.Spec.Sal
import Verif.Lemmas.Text
import Verif.Lemmas.Basic
import Verif.Lemmas.Sal

/-! # C59: MQTT topics -/

namespace CBus.Props
open CBus CBus.Spec

/-- The model's topics. -/
def topicOf : TopicKind → Int → Str
  | .lightSet => setTopic
  | .lightState => stateTopic
  | .lightConfig => confTopic
  | .sensorState => binSensorStateTopic
  | .sensorConfig => binSensorConfTopic

theorem text_parts (a c : String) (i : Int) : a.toList ++ intStr i ++ c.toList = (a ++ toString i ++ c).toList := by
  rw [String.toList_append, String.toList_append, intStr_toString]

/-- C59: the topics are the documented ones. -/
theorem C59_text (k : TopicKind) (ga : Int) : topicOf k ga = (topicText k ga).toList := by
  cases k with
  | lightSet => exact text_parts "homeassistant/light/cbus_" "/set" ga
  | lightState => exact text_parts "homeassistant/light/cbus_" "/state" ga
  | lightConfig => exact text_parts "homeassistant/light/cbus_" "/config" ga
  | sensorState => exact text_parts "homeassistant/binary_sensor/cbus_" "/state" ga
  | sensorConfig => exact text_parts "homeassistant/binary_sensor/cbus_" "/config" ga

theorem takeWhile_slash (i : Int) (suffix : Str) (h : suffix.head? = some '/') :
    (intStr i ++ suffix).takeWhile (· ≠ '/') = intStr i := by
  have h1 : ∀ c ∈ intStr i, decide (c ≠ '/') = true := by
    intro c hc; simpa using intStr_no_slash i c hc
  rw [List.takeWhile_append_of_pos h1]
  cases suffix with
  | nil => simp at h
  | cons c r =>
    simp only [List.head?_cons, Option.some.injEq] at h
    subst h
    simp

theorem getTopic_light (u : UniTable) (ga : Int) (suffix : Str) (h : suffix.head? = some '/') :
    getTopicGroupAddress u (lightTopicPrefix ++ intStr ga ++ suffix) = if IsByte ga then .ok ga else .error .valueError := by
  unfold getTopicGroupAddress
  have hp : (lightTopicPrefix ++ intStr ga ++ suffix).startsWith lightTopicPrefix = true := by
    simp [Str.startsWith, List.append_assoc]
  rw [hp]
  have hd : (lightTopicPrefix ++ intStr ga ++ suffix).drop lightTopicPrefix.length = intStr ga ++ suffix := by
    simp [List.append_assoc]
  rw [hd, takeWhile_slash ga suffix h, u.intOf_intStr]
  simp only [Bool.not_true, Bool.false_eq_true, if_false]
  by_cases hb : IsByte ga
  · rw [checkGa_byte hb, if_pos hb]
  · have : checkGa ga = .error .valueError := by
      unfold checkGa validateGa
      rw [if_neg]
      intro h
      simp at h
      exact hb ⟨by omega, by omega⟩
    rw [this, if_neg hb]

/-- C59: `get_topic_group_address` reads the group address back from the set, state
and configuration topics of every group address, and raises `ValueError` for those
of any other integer. -/
theorem C59_inverse (u : UniTable) (ga : Int) :
    ∀ k ∈ [TopicKind.lightSet, .lightState, .lightConfig],
      getTopicGroupAddress u (topicText k ga).toList = if IsByte ga then .ok ga else .error .valueError := by
  intro k hk
  rw [← C59_text]
  simp only [List.mem_cons, List.not_mem_nil, or_false] at hk
  rcases hk with rfl | rfl | rfl <;> exact getTopic_light u ga _ rfl

/-- C59: topics of other kinds raise `ValueError`. -/
theorem C59_others (u : UniTable) (topic : Str) (h : ¬ lightTopicPrefix <+: topic) :
    getTopicGroupAddress u topic = .error .valueError := by
  unfold getTopicGroupAddress
  rw [if_pos]
  cases hs : topic.startsWith lightTopicPrefix with
  | false => rfl
  | true => exact absurd (List.isPrefixOf_iff_prefix.1 hs) h

theorem head_sensor_light (a b : Str) : lightTopicPrefix ++ a ≠ binSensorTopicPrefix ++ b := by
  intro h
  have := congrArg (·[14]?) h
  rw [List.getElem?_append_left (by decide), List.getElem?_append_left (by decide)] at this
  revert this
  decide

theorem split_slash {i j : Int} {a b : Str} (h : intStr i ++ a = intStr j ++ b) (ha : a.head? = some '/')
    (hb : b.head? = some '/') : i = j ∧ a = b := by
  have h1 := takeWhile_slash i a ha
  have h2 := takeWhile_slash j b hb
  rw [h, h2] at h1
  rw [h1] at h
  exact ⟨(intStr_inj h1).symm, List.append_cancel_left h⟩

/-- The prefix of a kind of topic. -/
def prefixOf : TopicKind → Str
  | .lightSet | .lightState | .lightConfig => lightTopicPrefix
  | .sensorState | .sensorConfig => binSensorTopicPrefix

/-- The suffix of a kind of topic. -/
def suffixOf : TopicKind → Str
  | .lightSet => topicSetSuffix
  | .lightState | .sensorState => topicStateSuffix
  | .lightConfig | .sensorConfig => topicConfSuffix

theorem topicOf_parts (k : TopicKind) (ga : Int) : topicOf k ga = prefixOf k ++ (intStr ga ++ suffixOf k) := by
  cases k <;> simp only [topicOf, setTopic, stateTopic, confTopic, binSensorStateTopic, binSensorConfTopic, prefixOf,
    suffixOf, List.append_assoc]

theorem suffixOf_head (k : TopicKind) : (suffixOf k).head? = some '/' := by
  cases k <;> rfl

theorem prefixOf_eq {k k' : TopicKind} {a b : Str} (h : prefixOf k ++ a = prefixOf k' ++ b) : prefixOf k = prefixOf k' := by
  have two : ∀ k : TopicKind, prefixOf k = lightTopicPrefix ∨ prefixOf k = binSensorTopicPrefix := by
    intro k; cases k <;> simp [prefixOf]
  rcases two k with hk | hk <;> rcases two k' with hk' | hk' <;> rw [hk, hk'] at h ⊢
  · exact absurd h (head_sensor_light _ _)
  · exact absurd h.symm (head_sensor_light _ _)

theorem kind_inj : ∀ k k' : TopicKind, prefixOf k = prefixOf k' → suffixOf k = suffixOf k' → k = k' := by
  intro k k'; cases k <;> cases k' <;> decide +kernel

/-- C59: no two topics are the same. -/
theorem C59_distinct (k k' : TopicKind) (ga ga' : Int) (h : topicText k ga = topicText k' ga') : k = k' ∧ ga = ga' := by
  have h1 : topicOf k ga = topicOf k' ga' := by rw [C59_text, C59_text, h]
  rw [topicOf_parts, topicOf_parts] at h1
  have hp := prefixOf_eq h1
  rw [hp] at h1
  obtain ⟨hg, hs⟩ := split_slash (List.append_cancel_left h1) (suffixOf_head k) (suffixOf_head k')
  exact ⟨kind_inj k k' hp hs, hg⟩

example : (topicText .lightSet 200).toList = setTopic 200 ∧
    getTopicGroupAddress .ascii "homeassistant/light/cbus_200/set".toList = .ok 200 ∧
    getTopicGroupAddress .ascii "homeassistant/light/cbus_256/set".toList = .error .valueError ∧
    getTopicGroupAddress .ascii "homeassistant/light/cbus_-1/set".toList = .error .valueError ∧
    getTopicGroupAddress .ascii "homeassistant/binary_sensor/cbus_1/state".toList = .error .valueError := by
  refine ⟨(C59_text .lightSet 200).symm, ?_⟩
  decide +kernel

/-- Topics that nobody documented are accepted too. -/
example : getTopicGroupAddress .ascii "homeassistant/light/cbus_ +0_7/x/set".toList = .ok 7 := by decide +kernel

end CBus.Props
