import Verif.Props.Healed
import Verif.Props.Redelivery

/-! # C174: reports that come more than once -/

namespace CBus.Props
open CBus CBus.Spec

theorem arrives_mem {α : Type} {xs ys : List α} {n : Nat} (h : Arrives xs n ys) : ∀ y ∈ ys, y ∈ xs := by
  induction h with
  | done => simp
  | next n x ys h _ ih => exact List.forall_mem_cons.2 ⟨List.mem_of_getElem? h, ih⟩
  | again _ _ _ _ _ ih => exact ih

/-- C174: reports that come again, one by one or some in a row, leave the broker with the same messages on all
topics, however either stream is cut into (short) pieces. -/
theorem C174_repeated (now now' : Nat → PyDateTime) (hnow : ∀ n, DateTimeOk (now n)) (hnow' : ∀ n, DateTimeOk (now' n))
    (s s' : Client) (hu : Up s) (hu' : Up s') (ha : s.mqttApi = true) (ha' : s'.mqttApi = true) (xs ys : List (PM × Bytes))
    (h : Arrives xs 0 ys) (hi : ∀ i ∈ xs, EventLine i.1 i.2) (chunks chunks' : List Bytes)
    (hc : chunks.flatten = (xs.map (·.2)).flatten) (hc' : chunks'.flatten = (ys.map (·.2)).flatten) (n : Nat)
    (hl : ∀ i ∈ xs, i.2.length ≤ n) (hd : ∀ d ∈ chunks ++ chunks', d.length + n ≤ 257) (topic : Str) :
    keptOn topic (publishedFor now' s' chunks') = keptOn topic (publishedFor now s chunks) := by
  have hm := arrives_mem h
  have e1 := (C64_short now hnow s hu ha xs hi chunks hc n hl (fun d h => hd d (by simp [h]))).2.2
  have e2 := (C64_short now' hnow' s' hu' ha' ys (fun i h => hi i (hm i h)) chunks' hc' n (fun i h => hl i (hm i h))
    (fun d h => hd d (by simp [h]))).2.2
  unfold publishedFor keptOn
  rw [e1, e2, List.filterMap_flatMap, List.filterMap_flatMap]
  have := (arrives_last (fun i : PM × Bytes => (salMessages i.1.src (i.1.sals.map received)).filterMap (Hass.onTopic topic))
    xs 0 ys h).1
  rw [← this]
  simp

/-- C174: a report that is sent twice comes through if either of the two is damaged or lost: the broker keeps of all
its lights what it would keep if it had been sent once and had come through. -/
theorem C174_either (now now' : Nat → PyDateTime) (hnow : ∀ n, DateTimeOk (now n)) (hnow' : ∀ n, DateTimeOk (now' n))
    (s s' : Client) (hu : Up s) (hu' : Up s') (ha : s.mqttApi = true) (ha' : s'.mqttApi = true) (p : PM) (l : Bytes)
    (hp : EventLine p l) (got : List (Option PM × Bytes)) (hg : Conveyed (fun _ => True) [(p, l)] got) (first : Bool)
    (chunks chunks' : List Bytes) (hc : chunks.flatten = l)
    (hc' : chunks'.flatten = ((if first then got ++ [(some p, l)] else (some p, l) :: got).map (·.2)).flatten) (n : Nat)
    (hl : l.length ≤ n) (hl' : ∀ i ∈ got, i.2.length ≤ n) (hd : ∀ d ∈ chunks ++ chunks', d.length + n ≤ 257) (topic : Str) :
    keptOn topic (publishedFor now' s' chunks') = keptOn topic (publishedFor now s chunks) := by
  have e1 := (C64_short now hnow s hu ha [(p, l)] (by simpa using hp) chunks (by simpa using hc) n (by simpa using hl)
    (fun d h => hd d (by simp [h]))).2.2
  have hst := (conveyed_sent hg).2
  obtain ⟨r, hr, -, -, e2⟩ := C171_partial now' hnow' s' hu' ha' (if first then got ++ [(some p, l)] else (some p, l) :: got)
    (by
      intro i hi
      have : i ∈ got ∨ i = (some p, l) := by
        cases first
        · simp only [Bool.false_eq_true, if_false, List.mem_cons] at hi; exact hi.symm
        · simp only [if_true, List.mem_append, List.mem_singleton] at hi; exact hi
      rcases this with h | rfl
      · exact hst i h
      · exact .whole p l hp)
    chunks' hc' n
    (by
      intro i hi
      have : i ∈ got ∨ i = (some p, l) := by
        cases first
        · simp only [Bool.false_eq_true, if_false, List.mem_cons] at hi; exact hi.symm
        · simp only [if_true, List.mem_append, List.mem_singleton] at hi; exact hi
      rcases this with h | rfl
      · exact hl' i h
      · exact hl)
    (fun d h => hd d (by simp [h]))
  subst hr
  -- of the other one either nothing is told or the same
  have told : ∀ {sent : List (PM × Bytes)} {got : List (Option PM × Bytes)}, Conveyed (fun _ => True) sent got → sent.length ≤ 1 →
      (got.flatMap fun i => toldBy i.1) = [] ∨ (got.flatMap fun i => toldBy i.1) = sent.flatMap fun i => toldBy (some i.1) := by
    intro sent got hg
    induction hg with
    | nil => exact fun _ => .inl rfl
    | whole q k _ sent got hr ih =>
      intro hlen
      have : sent = [] := List.length_eq_zero_iff.1 (by simp only [List.length_cons] at hlen; omega)
      subst this
      right
      rcases ih (by simp) with h | h <;> simp only [List.flatMap_cons, h] <;> rfl
    | changed q a b c c' _ _ _ _ sent got hr ih =>
      intro hlen
      have : sent = [] := List.length_eq_zero_iff.1 (by simp only [List.length_cons] at hlen; omega)
      subst this
      left
      rcases ih (by simp) with h | h <;> simp only [List.flatMap_cons, h] <;> rfl
    | lost q k _ _ sent got hr ih =>
      intro hlen
      have : sent = [] := List.length_eq_zero_iff.1 (by simp only [List.length_cons] at hlen; omega)
      subst this
      left
      rcases ih (by simp) with h | h <;> exact h
    | noise k _ _ sent got hr ih => exact fun hlen => ih hlen
  have e0 : ([(p, l)].flatMap fun i => salMessages i.1.src (i.1.sals.map received)) = toldBy (some p) := by
    simp [toldBy]
  unfold publishedFor keptOn
  rw [e1, e2, e0]
  have e3 : ([(p, l)].flatMap fun i => toldBy (some i.1)) = toldBy (some p) := by simp
  have ht := told hg (by simp)
  rw [e3] at ht
  have twice : ∀ a : List MqttPayload, (a ++ a).getLast? = a.getLast? := by
    intro a
    rw [List.getLast?_append]
    cases a.getLast? <;> rfl
  cases first with
  | true =>
    simp only [if_true, List.flatMap_append, List.flatMap_cons, List.flatMap_nil, List.append_nil]
    rcases ht with h | h
    · rw [h, List.nil_append]
    · rw [h, List.filterMap_append, twice]
  | false =>
    simp only [Bool.false_eq_true, if_false, List.flatMap_cons]
    rcases ht with h | h
    · rw [h, List.append_nil]
    · rw [h, List.filterMap_append, twice]

/-- Light 1 is switched on, and off; both reports come twice. -/
example :
    let s : Client := { connected := true, mqttApi := true }
    let on1 := ascii "05053800790144\r\n"
    let off1 := ascii "050538000101BC\r\n"
    let topic := (topicText .sensorState 1).toList
    Arrives [on1, off1] 0 [on1, off1, on1, off1] ∧
    keptOn topic (publishedFor (fun _ => someTime) s [on1 ++ off1 ++ on1 ++ off1]) = some (.text "OFF".toList) ∧
    keptOn topic (publishedFor (fun _ => someTime) s [on1 ++ off1]) = some (.text "OFF".toList) := by
  refine ⟨.next 0 _ _ rfl (.next 1 _ _ rfl (.again 2 0 _ (by decide) (.next 0 _ _ rfl (.next 1 _ _ rfl .done)))), ?_⟩
  decide +kernel

/-- Of two copies the first is damaged. -/
example :
    let s : Client := { connected := true, mqttApi := true }
    publishedFor (fun _ => someTime) s [ascii "05053800790x44\r\n05053800790144\r\n"] =
      publishedFor (fun _ => someTime) s [ascii "05053800790144\r\n"] := by decide +kernel

end CBus.Props
