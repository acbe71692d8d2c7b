import Verif.Props.MqttEvents
import Verif.Props.Topics
import Verif.Spec.Lamp

/-! # C122: what the broker shows of a light -/

namespace CBus.Props
open CBus CBus.Spec

/-- The daemon is called for one event after the other. -/
def callHooks (now : Nat → PyDateTime) : List Event → Proc Client (Eff MqttEff) Unit
  | [] => pure ()
  | e :: es => Proc.andThen (Mqtt.cbusHook now e) fun _ => callHooks now es

/-- The claim: once it is known which level a light has, the broker shows the level it comes to. -/
def C122_claim : Prop :=
  ∀ (now : Nat → PyDateTime) (s : Client) (ga : Int) (l : Lamp) (h : List (Rat × Event)), s.mqttApi = true →
    (∀ x ∈ h, Sound x.2) → (∃ x ∈ h, Tells ga x.2 ≠ none) →
    ∃ b : Int, shown ga (messagesOf (callHooks now (h.map (·.2)) s).2.1) = some (.num (.int b)) ∧
      (b : Rat) = (l.after ga h).to_

theorem callHooks_eq (now : Nat → PyDateTime) (s : Client) (hs : s.mqttApi = true) : ∀ (es : List Event),
    (∀ e ∈ es, Sound e) → callHooks now es s = (s, (es.flatMap eventMessages).map .ext, .ok ()) := by
  intro es
  induction es with
  | nil => intro _; rfl
  | cons e es ih =>
    intro h
    have h1 := C62_event now e (h e (by simp)).1 s
    rw [hs] at h1
    simp only [callHooks, Proc.andThen, h1, if_true, ih fun e he => h e (by simp [he]), List.flatMap_cons, List.map_append]

theorem topic_inj (g ga : Int) : (topicText .lightState g).toList = (topicText .lightState ga).toList ↔ g = ga := by
  constructor
  · intro h
    exact (C59_distinct .lightState .lightState g ga (String.toList_inj.1 h)).2
  · rintro rfl
    rfl

/-- What is found of the two messages about a light. -/
theorem shown_pair (ga g : Int) (on : Bool) (i d : Int) (src : Option Int) (on' : Bool) :
    [stateMessage g on (.int i) d src, sensorMessage g on'].filterMap (brightnessIn ga) =
      ((if g = ga then some i else none).map fun i => JVal.num (.int i)).toList := by
  have hd : ∀ a c e : JVal, dictGet [("state".toList, a), ("brightness".toList, .num (.int i)), ("transition".toList, c),
      ("cbus_source_addr".toList, e)] "brightness".toList = some (.num (.int i)) := by
    intro a c e
    simp [dictGet]
  simp only [stateMessage, sensorMessage, brightnessIn, List.filterMap_cons, List.filterMap_nil, topic_inj, hd]
  split <;> simp_all

/-- What is found of one event. -/
theorem shown_event (ga : Int) (e : Event) (he : Sound e) :
    (eventMessages e).filterMap (brightnessIn ga) = ((Tells ga e).map fun i => JVal.num (.int i)).toList := by
  cases e with
  | lightingOn src g => exact shown_pair ga g true 255 0 src true
  | lightingOff src g => exact shown_pair ga g false 0 0 src false
  | lightingRamp src g d x =>
    obtain ⟨i, rfl⟩ := he.2 src g d x rfl
    exact shown_pair ga g true i d src _
  | _ => rfl

/-- C122: what the broker shows of a light is always what the last event said that was about its
level. -/
theorem C122_told (now : Nat → PyDateTime) (s : Client) (hs : s.mqttApi = true) (ga : Int) (es : List Event)
    (h : ∀ e ∈ es, Sound e) :
    shown ga (messagesOf (callHooks now es s).2.1) = (es.filterMap (Tells ga)).getLast?.map fun i => .num (.int i) := by
  rw [callHooks_eq now s hs es h, messagesOf_ext, ← List.getLast?_map]
  unfold shown
  congr 1
  induction es with
  | nil => rfl
  | cons e es ih =>
    rw [List.flatMap_cons, List.filterMap_append, ih fun e he => h e (by simp [he]), shown_event ga e (h e (by simp))]
    cases ht : Tells ga e <;> simp [ht]

theorem level_rest (x t u : Rat) : (Lamp.rest x t).level u = x := by
  unfold Lamp.level Lamp.rest
  simp only
  split
  · rfl
  · simp [Rat.sub_self, Rat.zero_mul, Rat.add_zero]

/-- A light that is not stopped on its way goes where it was told to, or where it was going. -/
theorem after_to (ga : Int) : ∀ (h : List (Rat × Event)) (l : Lamp), (∀ x ∈ h, Sound x.2) → Undisturbed ga l h →
    (l.after ga h).to_ = ((h.filterMap fun x => Tells ga x.2).getLast?.map fun i : Int => (i : Rat)).getD l.to_ := by
  intro h
  induction h with
  | nil => intro l _ _; rfl
  | cons x h ih =>
    intro l hs hu
    obtain ⟨t, e⟩ := x
    obtain ⟨h1, h2⟩ := hu
    have hs' : ∀ x ∈ h, Sound x.2 := fun x hx => hs x (by simp [hx])
    have e1 : (l.hears ga (t, e)).to_ = ((Tells ga e).map fun i : Int => (i : Rat)).getD l.to_ := by
      cases e with
      | lightingOn src g => simp only [Lamp.hears, Tells]; split <;> simp [Lamp.rest]
      | lightingOff src g => simp only [Lamp.hears, Tells]; split <;> simp [Lamp.rest]
      | lightingRamp src g d x =>
        obtain ⟨i, rfl⟩ := (hs _ List.mem_cons_self).2 src g d x rfl
        simp only [Lamp.hears, Tells]; split <;> simp
      | lightingTerminate src g =>
        simp only [Lamp.hears, Tells]
        split
        · rename_i hg
          subst hg
          exact h1 src rfl
        · rfl
      | _ => rfl
    have e2 := ih (l.hears ga (t, e)) hs' h2
    show (Lamp.after ga (l.hears ga (t, e)) h).to_ = _
    rw [e2, e1, List.filterMap_cons]
    cases ht : Tells ga e with
    | none => simp
    | some i =>
      simp only [Option.map_some, Option.getD_some]
      cases hl : (h.filterMap fun x => Tells ga x.2) with
      | nil => rfl
      | cons a r => rw [List.getLast?_cons_cons]; cases hr : (a :: r).getLast? <;> simp_all

/-- C122, without what is wrong: if no light is stopped on its way, the broker shows where it comes to. -/
theorem C122_partial (now : Nat → PyDateTime) (s : Client) (ga : Int) (l : Lamp) (h : List (Rat × Event))
    (hs : s.mqttApi = true) (hh : ∀ x ∈ h, Sound x.2) (ht : ∃ x ∈ h, Tells ga x.2 ≠ none) (hu : Undisturbed ga l h) :
    ∃ b : Int, shown ga (messagesOf (callHooks now (h.map (·.2)) s).2.1) = some (.num (.int b)) ∧
      (b : Rat) = (l.after ga h).to_ := by
  rw [C122_told now s hs ga _ (by
      intro e he
      obtain ⟨x, hx, rfl⟩ := List.mem_map.1 he
      exact hh x hx), after_to ga h l hh hu, List.filterMap_map]
  have hc : (Tells ga ∘ fun x : Rat × Event => x.2) = fun x => Tells ga x.2 := rfl
  rw [hc]
  cases hl : (h.filterMap fun x => Tells ga x.2).getLast? with
  | some i => exact ⟨i, rfl, rfl⟩
  | none =>
    obtain ⟨x, hx, hn⟩ := ht
    cases he : Tells ga x.2 with
    | none => exact absurd he hn
    | some i =>
      have : i ∈ h.filterMap fun x => Tells ga x.2 := List.mem_filterMap.2 ⟨x, hx, he⟩
      rw [List.getLast?_eq_none_iff.1 hl] at this
      cases this

/-- A ramp to full level in a minute, stopped after half of it. -/
def stopped : List (Rat × Event) := [(0, .lightingRamp (some 5) 7 60 (.int 255)), (30, .lightingTerminate (some 5) 7)]

theorem stopped_sound : ∀ x ∈ stopped, Sound x.2 := by
  intro x hx
  simp only [stopped, List.mem_cons, List.not_mem_nil, or_false] at hx
  rcases hx with rfl | rfl
  · exact ⟨by simp, by rintro _ _ _ _ h; cases h; exact ⟨_, rfl⟩⟩
  · exact ⟨by simp, by rintro _ _ _ _ h; cases h⟩

/-- C122 is false: nothing is published when a ramp is stopped, so that the broker shows for good
the level that the light would have had. -/
theorem C122_false : ¬ C122_claim := by
  intro h
  obtain ⟨b, h1, h2⟩ := h (fun _ => someTime) { mqttApi := true } 7 (.rest 0 0) stopped rfl stopped_sound
    ⟨_, List.mem_cons_self, by decide⟩
  rw [C122_told _ _ rfl _ _ (by
    intro e he
    obtain ⟨x, hx, rfl⟩ := List.mem_map.1 he
    exact stopped_sound x hx)] at h1
  have e : ((stopped.map (·.2)).filterMap (Tells 7)).getLast? = some 255 := by decide
  rw [e] at h1
  cases h1
  exact absurd h2 (by decide +kernel)

/-- The same light, stopped after it has come to its level, and on its way once more. -/
example : Undisturbed 7 (.rest 0 0) [(0, .lightingRamp (some 5) 7 60 (.int 255)), (60, .lightingTerminate (some 5) 7),
    (61, .lightingRamp (some 5) 7 10 (.int 100)), (62, .lightingTerminate none 8), (63, .lightingOff none 7)] ∧
    (Lamp.after 7 (.rest 0 0) stopped).to_ = 255 / 2 := by
  refine ⟨⟨?_, ?_, ?_, ?_, ?_, trivial⟩, by decide +kernel⟩
  · intro src h; cases h
  · intro src _; decide +kernel
  · intro src h; cases h
  · intro src h; cases h
  · intro src h; cases h

end CBus.Props
