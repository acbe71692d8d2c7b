import Verif.Props.Street
import Verif.Spec.Timing

/-! # C130 and C131: how long a light takes, and how long it is said to take -/

namespace CBus.Props
open CBus CBus.Spec

/-- What a set message is that a connected daemon can carry out: on the set topic of a group, readable, and
not one that switches on with a negative brightness (C61). -/
structure Carried (u : UniTable) (loads : Bytes → Option JVal) (topic : Str) (payload : Bytes) (ga : Int)
    (d : List (Str × JVal)) (m : SetMessage) : Prop where
  topic : ForLight u topic ga
  json : loads payload = some (.obj d)
  means : Means u (.obj d) m
  bright : 0 ≤ m.brightness ∨ m.on = false

/-- The claim of C130: the command takes the shortest time that C-Bus has for it. -/
def C130_claim : Prop :=
  ∀ (u : UniTable) (loads : Bytes → Option JVal) (topic : Str) (payload : Bytes) (ga : Int) (d : List (Str × JVal))
    (m : SetMessage) (t : Rat) (s : Client), Carried u loads topic payload ga d m → Up s → AsksTime d t → 0 ≤ t → t ≤ 1020 →
    ∃ order line, writesOf (Mqtt.onMessage u loads topic payload s).2.1 = [line] ∧ OrderLine (byteOf ga, order) line ∧
      IsShortest t order.time

/-- The claim of C131: that time is what is published. -/
def C131_claim : Prop :=
  ∀ (u : UniTable) (loads : Bytes → Option JVal) (topic : Str) (payload : Bytes) (ga : Int) (d : List (Str × JVal))
    (m : SetMessage) (s : Client), Carried u loads topic payload ga d m → Up s →
    ∃ order line, writesOf (Mqtt.onMessage u loads topic payload s).2.1 = [line] ∧ OrderLine (byteOf ga, order) line ∧
      (messagesOf (Mqtt.onMessage u loads topic payload s).2.1).filterMap (transitionIn ga) = [.num (.int order.time)]

theorem getD_quantise (d : Int) : rampDurations.idxOf (quantise d) < 16 ∧
    rampDurations.getD (rampDurations.idxOf (quantise d)) 0 = quantise d := by
  have h : ∀ q ∈ rampDurations, rampDurations.idxOf q < 16 ∧ rampDurations.getD (rampDurations.idxOf q) 0 = q := by decide
  exact h _ (quantise_spec d).1

/-- Whatever is asked for, a command to switch off takes no time, and any other the shortest time that
is not shorter than the whole seconds asked for, or else the longest there is. -/
theorem C130_taken (u : UniTable) (loads : Bytes → Option JVal) (topic : Str) (payload : Bytes) (ga : Int)
    (d : List (Str × JVal)) (m : SetMessage) (s : Client) (hc : Carried u loads topic payload ga d m) (hu : Up s) :
    ∃ order line, writesOf (Mqtt.onMessage u loads topic payload s).2.1 = [line] ∧ OrderLine (byteOf ga, order) line ∧
      IsQuantised (if m.on then max 0 m.transition else 0) order.time ∧
      (messagesOf (Mqtt.onMessage u loads topic payload s).2.1).filterMap (transitionIn ga) =
        [.num (.int (if m.on then max 0 m.transition else 0))] := by
  obtain ⟨c, h1, h2⟩ := C60_acts_partial u loads topic ga ((C104_topic u topic ga).2 hc.topic) payload _ hc.json m hc.means
    hc.bright s hu
  rw [h2]
  have hcode : IsCode c := by
    have key : ∀ k : Fin 20, ∀ c : UInt8, cycleFrom k.1 1 = [c] → IsCode c := by
      intro k c h
      have h2 : ∀ k : Fin 20, ∀ x ∈ cycleFrom k.1 1, IsCode x := by unfold IsCode; decide +kernel
      exact h2 k c (h ▸ List.mem_singleton.2 rfl)
    exact key ⟨s.nextConf, hu.2⟩ c h1
  have hw : ∀ l : Bytes, ∀ ms : List MqttEff, writesOf (Eff.write l :: ms.map Eff.ext) = [l] := by
    intro l ms
    simp [writesOf, List.filterMap_map, Function.comp_def]
  have hm : ∀ l : Bytes, ∀ ms : List MqttEff, messagesOf (Eff.write l :: ms.map Eff.ext) = ms := by
    intro l ms
    have : messagesOf (ms.map Eff.ext) = ms := messagesOf_ext ms
    simpa [messagesOf] using this
  rw [hw, hm]
  have pair : ∀ on l t src on', [stateMessage ga on l t src, sensorMessage ga on'].filterMap (transitionIn ga) =
      [JVal.num (.int t)] := by
    intro on l t src on'
    have h1 : transitionIn ga (stateMessage ga on l t src) = some (.num (.int t)) := by
      simp only [transitionIn, stateMessage, if_true]
      rfl
    have h2 : transitionIn ga (sensorMessage ga on') = none := rfl
    rw [List.filterMap_cons, h1, List.filterMap_cons, h2]
    rfl
  by_cases hon : m.on = true
  · rw [if_pos hon]
    by_cases hb : clamp m.brightness = 255 ∧ max 0 m.transition = 0
    · refine ⟨.on, _, rfl, ⟨_, c, trivial, hcode, (spelled_iff _ _ _).2 rfl, ?_⟩, ?_, ?_⟩
      · simp only [setLine, SetMessage.call, hon, hb, if_true, and_self, ClientCall.frame]
        rfl
      · rw [hb.2]; exact quantise_spec 0
      · simp only [SetMessage.messages, hon, hb, if_true, and_self, eventMessages]
        exact pair ..
    · have hq := getD_quantise (max 0 m.transition)
      refine ⟨.ramp (rampDurations.idxOf (quantise (max 0 m.transition))) (byteOf (clamp m.brightness)), _, rfl,
        ⟨_, c, hq.1, hcode, (spelled_iff _ _ _).2 rfl, ?_⟩, ?_, ?_⟩
      · simp only [setLine, SetMessage.call, hon, hb, if_true, if_false, ClientCall.frame]
        rfl
      · show IsQuantised _ (rampDurations.getD _ 0)
        rw [hq.2]; exact quantise_spec _
      · simp only [SetMessage.messages, hon, hb, if_true, if_false, eventMessages]
        exact pair ..
  · rw [if_neg hon]
    refine ⟨.off, _, rfl, ⟨_, c, trivial, hcode, (spelled_iff _ _ _).2 rfl, ?_⟩, quantise_spec 0, ?_⟩
    · simp only [setLine, SetMessage.call, hon, if_false, ClientCall.frame]
      rfl
    · simp only [SetMessage.messages, hon, eventMessages]
      exact pair ..

theorem asks_whole {u : UniTable} {d : List (Str × JVal)} {m : SetMessage} {t : Rat} (hm : Means u (.obj d) m)
    (ht : AsksTime d t) (h0 : 0 ≤ t) : (m.transition : Rat) ≤ t ∧ t < m.transition + 1 ∧ 0 ≤ m.transition := by
  obtain ⟨d', s, hd, _, _, _, h⟩ := hm
  cases hd
  unfold Member at h
  have lt1 : ∀ i : Int, (i : Rat) < i + 1 := by
    intro i
    rw [show (i : Rat) + 1 = ((i + 1 : Int) : Rat) by simp]
    exact Rat.intCast_lt_intCast.2 (by omega)
  cases ht with
  | absent ha =>
    rw [ha] at h
    simp only at h
    rw [h]
    exact ⟨Rat.le_refl, lt1 0, Int.le_refl 0⟩
  | whole i ha =>
    rw [ha] at h
    simp only at h
    cases h
    refine ⟨Rat.le_refl, lt1 _, ?_⟩
    exact Rat.intCast_le_intCast.1 h0
  | fraction _ ha =>
    rw [ha] at h
    simp only at h
    cases h with
    | float _ _ h =>
      rcases h with ⟨_, h1, h2⟩ | ⟨h1, _⟩
      · refine ⟨h1, h2, ?_⟩
        have : (0 : Rat) < ((m.transition + 1 : Int) : Rat) := by
          rw [show ((m.transition + 1 : Int) : Rat) = (m.transition : Rat) + 1 by simp]
          exact Rat.not_le.1 fun hb => Rat.not_le.2 h2 (Rat.le_trans hb h0)
        have := Rat.intCast_lt_intCast.1 (show ((0 : Int) : Rat) < _ from this)
        omega
      · exact absurd h0 (Rat.not_le.2 h1)

/-- C130 as far as it holds: for a message that switches on or dims, in whole seconds. -/
theorem C130_partial (u : UniTable) (loads : Bytes → Option JVal) (topic : Str) (payload : Bytes) (ga : Int)
    (d : List (Str × JVal)) (m : SetMessage) (t : Int) (s : Client) (hc : Carried u loads topic payload ga d m) (hu : Up s)
    (ht : AsksTime d t) (h0 : 0 ≤ t) (h1 : t ≤ 1020) (hon : m.on = true) :
    ∃ order line, writesOf (Mqtt.onMessage u loads topic payload s).2.1 = [line] ∧ OrderLine (byteOf ga, order) line ∧
      IsShortest t order.time := by
  obtain ⟨order, line, h2, h3, h4, _⟩ := C130_taken u loads topic payload ga d m s hc hu
  refine ⟨order, line, h2, h3, ?_⟩
  obtain ⟨k1, k2, _⟩ := asks_whole hc.means ht (show ((0 : Int) : Rat) ≤ t from Rat.intCast_le_intCast.2 h0)
  have e : m.transition = t := by
    have a := Rat.intCast_le_intCast.1 k1
    rw [show (m.transition : Rat) + 1 = ((m.transition + 1 : Int) : Rat) by simp] at k2
    have b := Rat.intCast_lt_intCast.1 k2
    omega
  rw [if_pos hon, e, show max 0 t = t by omega] at h4
  obtain ⟨q1, q2, _⟩ := h4
  obtain ⟨q2, q3⟩ := q2 h1
  exact ⟨q1, Rat.intCast_le_intCast.2 q2, fun x hx hl => q3 x hx (Rat.intCast_le_intCast.1 hl)⟩

/-- What is left of it for fractions: the light takes less than a second too little. -/
theorem C130_within (u : UniTable) (loads : Bytes → Option JVal) (topic : Str) (payload : Bytes) (ga : Int)
    (d : List (Str × JVal)) (m : SetMessage) (t : Rat) (s : Client) (hc : Carried u loads topic payload ga d m) (hu : Up s)
    (ht : AsksTime d t) (h0 : 0 ≤ t) (h1 : t ≤ 1020) (hon : m.on = true) :
    ∃ order line, writesOf (Mqtt.onMessage u loads topic payload s).2.1 = [line] ∧ OrderLine (byteOf ga, order) line ∧
      t < order.time + 1 := by
  obtain ⟨order, line, h2, h3, h4, _⟩ := C130_taken u loads topic payload ga d m s hc hu
  refine ⟨order, line, h2, h3, ?_⟩
  obtain ⟨k1, k2, k3⟩ := asks_whole hc.means ht h0
  have hle : m.transition ≤ 1020 := Rat.intCast_le_intCast.1 (Rat.le_trans k1 h1)
  rw [if_pos hon, show max 0 m.transition = m.transition by omega] at h4
  have q := (h4.2.1 hle).1
  rw [show (m.transition : Rat) + 1 = ((m.transition + 1 : Int) : Rat) by simp] at k2
  rw [show (order.time : Rat) + 1 = ((order.time + 1 : Int) : Rat) by simp]
  have hi : ((m.transition + 1 : Int) : Rat) ≤ ((order.time + 1 : Int) : Rat) := Rat.intCast_le_intCast.2 (by omega)
  exact Rat.not_le.1 fun hb => Rat.not_le.2 k2 (Rat.le_trans hi hb)

/-- C131 as far as it holds: for a time that C-Bus has, and for switching off. -/
theorem C131_partial (u : UniTable) (loads : Bytes → Option JVal) (topic : Str) (payload : Bytes) (ga : Int)
    (d : List (Str × JVal)) (m : SetMessage) (s : Client) (hc : Carried u loads topic payload ga d m) (hu : Up s)
    (ht : m.on = false ∨ max 0 m.transition ∈ rampDurations) :
    ∃ order line, writesOf (Mqtt.onMessage u loads topic payload s).2.1 = [line] ∧ OrderLine (byteOf ga, order) line ∧
      (messagesOf (Mqtt.onMessage u loads topic payload s).2.1).filterMap (transitionIn ga) = [.num (.int order.time)] := by
  obtain ⟨order, line, h2, h3, h4, h5⟩ := C130_taken u loads topic payload ga d m s hc hu
  refine ⟨order, line, h2, h3, ?_⟩
  rw [h5]
  have fixed : ∀ x ∈ rampDurations, quantise x = x := by decide
  have : order.time = if m.on then max 0 m.transition else 0 := by
    rw [quantise_unique _ _ h4]
    apply fixed
    rcases ht with ht | ht
    · rw [if_neg (by rw [ht]; decide)]; decide
    · split
      · exact ht
      · decide
  rw [this]

/-- And only then: any other time that is published is not the time that the light takes. -/
theorem C131_otherwise (u : UniTable) (loads : Bytes → Option JVal) (topic : Str) (payload : Bytes) (ga : Int)
    (d : List (Str × JVal)) (m : SetMessage) (s : Client) (hc : Carried u loads topic payload ga d m) (hu : Up s)
    (hon : m.on = true) (ht : max 0 m.transition ∉ rampDurations) (order : Order) (ho : order.Ok) :
    (messagesOf (Mqtt.onMessage u loads topic payload s).2.1).filterMap (transitionIn ga) ≠ [.num (.int order.time)] := by
  obtain ⟨_, _, _, _, _, h5⟩ := C130_taken u loads topic payload ga d m s hc hu
  rw [h5, if_pos hon]
  intro h
  injection h with h
  injection h with h
  injection h with h
  apply ht
  rw [h]
  cases order with
  | off => decide
  | on => decide
  | ramp k l =>
    have : ∀ k < 16, rampDurations.getD k 0 ∈ rampDurations := by decide
    exact this k ho

theorem orderLine_time {ga : UInt8} {x y : Order} {line : Bytes} (hx : OrderLine (ga, x) line) (hy : OrderLine (ga, y) line) :
    x.time = y.time := by
  obtain ⟨d1, c1, o1, _, s1, rfl⟩ := hx
  obtain ⟨d2, c2, o2, _, s2, h⟩ := hy
  have := framed_digits h
  subst this
  have hd : x.data ga = y.data ga := by simpa using spelled_body s1 s2
  cases x with
  | off => cases y with
    | ramp => exact absurd (congrArg List.length hd) (by simp [Order.data])
    | _ => rfl
  | on => cases y with
    | ramp => exact absurd (congrArg List.length hd) (by simp [Order.data])
    | _ => rfl
  | ramp k l => cases y with
    | ramp k' l' =>
      have hb : byteOf (rampCode k) = byteOf (rampCode k') := by
        simp only [Order.data, List.cons.injEq] at hd
        exact hd.1
      have key : ∀ k < 16, ∀ k' < 16, byteOf (rampCode k) = byteOf (rampCode k') → k = k' := by decide
      rw [key k o1 k' o2 hb]
      rfl
    | _ => exact absurd (congrArg List.length hd) (by simp [Order.data])

theorem carried7 (v : List (Str × JVal)) (m : SetMessage) (hm : Means .ascii (.obj v) m) (hb : 0 ≤ m.brightness ∨ m.on = false) :
    Carried .ascii (fun _ => some (.obj v)) "homeassistant/light/cbus_7/set".toList [] 7 v m :=
  ⟨(C104_topic .ascii _ 7).1 ⟨by decide, by decide, by decide +kernel⟩, rfl, hm, hb⟩

/-- The time that a command takes is the one of C130_taken. -/
theorem time_taken {u : UniTable} {loads : Bytes → Option JVal} {topic : Str} {payload : Bytes} {ga : Int}
    {d : List (Str × JVal)} {m : SetMessage} {s : Client} (hc : Carried u loads topic payload ga d m) (hu : Up s) {order : Order}
    {line : Bytes} (h1 : writesOf (Mqtt.onMessage u loads topic payload s).2.1 = [line])
    (h2 : OrderLine (byteOf ga, order) line) : order.time = quantise (if m.on then max 0 m.transition else 0) := by
  obtain ⟨order', line', k1, k2, k3, _⟩ := C130_taken u loads topic payload ga d m s hc hu
  rw [h1] at k1
  injection k1 with k1
  subst k1
  rw [orderLine_time h2 k2]
  exact quantise_unique _ _ k3

/-- It is false of switching off: a light that is to go off in 4 seconds goes off at once. -/
theorem C130_false : ¬ C130_claim := by
  intro h
  have hc := carried7 [("state".toList, .str "OFF".toList), ("transition".toList, .num (.int 4))] ⟨false, 255, 4⟩
    ⟨_, _, rfl, rfl, by simp [StateOn], rfl, .int 4⟩ (.inl (by decide))
  have hu : Up { connected := true } := ⟨rfl, by decide⟩
  obtain ⟨order, line, h1, h2, _, h3, _⟩ := h _ _ _ [] 7 _ _ 4 { connected := true } hc hu (.whole 4 rfl) (by decide) (by decide)
  rw [time_taken hc hu h1 h2] at h3
  exact absurd h3 (by decide +kernel)

/-- And of fractions: half a second more than 4 seconds, or more than none, is lost. -/
theorem C130_fraction_false (t : Rat) (ht : t = 9 / 2 ∨ t = 1 / 2) : ∃ v m, m.on = true ∧
    Carried .ascii (fun _ => some (.obj v)) "homeassistant/light/cbus_7/set".toList [] 7 v m ∧ AsksTime v t ∧
    ∀ order line, writesOf (Mqtt.onMessage .ascii (fun _ => some (.obj v)) "homeassistant/light/cbus_7/set".toList []
      { connected := true }).2.1 = [line] → OrderLine (7, order) line → (order.time : Rat) < t := by
  have hu : Up { connected := true } := ⟨rfl, by decide⟩
  have go : ∀ i : Int, 0 ≤ t → (i : Rat) ≤ t → t < i + 1 → ((quantise (max 0 i) : Int) : Rat) < t → _ := fun i h0 h1 h2 h3 => by
    have hc := carried7 [("state".toList, .str "ON".toList), ("transition".toList, .num (.flt t))] ⟨true, 255, i⟩
      ⟨_, _, rfl, rfl, by simp [StateOn], rfl, .float t i (.inl ⟨h0, h1, h2⟩)⟩ (.inl (show (0 : Int) ≤ 255 by decide))
    exact (⟨_, _, rfl, hc, .fraction t rfl, fun order line k1 k2 => by
      rw [time_taken hc hu k1 k2]
      exact h3⟩ : ∃ v m, m.on = true ∧
        Carried .ascii (fun _ => some (.obj v)) "homeassistant/light/cbus_7/set".toList [] 7 v m ∧ AsksTime v t ∧
        ∀ order line, writesOf (Mqtt.onMessage .ascii (fun _ => some (.obj v)) "homeassistant/light/cbus_7/set".toList []
          { connected := true }).2.1 = [line] → OrderLine (7, order) line → (order.time : Rat) < t)
  rcases ht with rfl | rfl
  · exact go 4 (by decide +kernel) (by decide +kernel) (by decide +kernel) (by decide +kernel)
  · exact go 0 (by decide +kernel) (by decide +kernel) (by decide +kernel) (by decide +kernel)

/-- A light that is to come on in 5 seconds takes 8, and is said to take 5. -/
theorem C131_false : ¬ C131_claim := by
  intro h
  have hc := carried7 [("state".toList, .str "ON".toList), ("transition".toList, .num (.int 5))] ⟨true, 255, 5⟩
    ⟨_, _, rfl, rfl, by simp [StateOn], rfl, .int 5⟩ (.inl (by decide))
  have hu : Up { connected := true } := ⟨rfl, by decide⟩
  obtain ⟨order, line, _, ⟨_, _, ho, _⟩, h3⟩ := h _ _ _ [] 7 _ _ { connected := true } hc hu
  exact C131_otherwise _ _ _ _ _ _ _ _ hc hu rfl (by decide) order ho h3

example : (Mqtt.onMessage .ascii (fun _ => some (.obj [("state".toList, .str "ON".toList), ("transition".toList, .num (.int 5))]))
      "homeassistant/light/cbus_7/set".toList [] { connected := true }).2.1 =
    [.write (ascii "\\0538001207FFABh\r"), .ext (stateMessage 7 true (.int 255) 5 none), .ext (sensorMessage 7 true)] := by
  decide +kernel

end CBus.Props
