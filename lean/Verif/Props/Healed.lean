import Verif.Props.Struck
import Verif.Props.Apart
import Verif.Spec.Redelivery

/-! # C172: the next report of a light puts right what damage left wrong -/

namespace CBus.Props
open CBus CBus.Spec

/-- Reports as they were sent and as they arrive: of those that `may` be damaged one character may be changed (not
the end of the line; nor the first one to `+` or `!`, see C171), or all may be lost; and there may be noise between
them. -/
inductive Conveyed (may : PM → Prop) : List (PM × Bytes) → List (Option PM × Bytes) → Prop
  | nil : Conveyed may [] []
  | whole (p : PM) (l : Bytes) (h : EventLine p l) (sent : List (PM × Bytes)) (got : List (Option PM × Bytes))
      (hr : Conveyed may sent got) : Conveyed may ((p, l) :: sent) ((some p, l) :: got)
  | changed (p : PM) (a b : Bytes) (c c' : UInt8) (h : EventLine p (a ++ c :: b ++ [0x0d, 0x0a])) (hne : c' ≠ c)
      (hb : ¬ (a = [] ∧ (c' = 0x2b ∨ c' = 0x21))) (hm : may p) (sent : List (PM × Bytes)) (got : List (Option PM × Bytes))
      (hr : Conveyed may sent got) :
      Conveyed may ((p, a ++ c :: b ++ [0x0d, 0x0a]) :: sent) ((none, a ++ c' :: b ++ [0x0d, 0x0a]) :: got)
  | lost (p : PM) (l : Bytes) (h : EventLine p l) (hm : may p) (sent : List (PM × Bytes)) (got : List (Option PM × Bytes))
      (hr : Conveyed may sent got) : Conveyed may ((p, l) :: sent) got
  | noise (l : Bytes) (hl : PciLine l) (hm : (∃ c ∈ l, ¬ HexDigit c) ∨ ∃ m, HexPairs l m ∧ m ≠ [] ∧ ¬ SumsToZero m)
      (sent : List (PM × Bytes)) (got : List (Option PM × Bytes)) (hr : Conveyed may sent got) :
      Conveyed may sent ((none, l ++ [0x0d, 0x0a]) :: got)

/-- A report says what the light `g` is. -/
def Mentions (g : Int) (p : PM) : Prop := ∃ x ∈ p.sals, SaysOf g x = true

theorem conveyed_sent {may : PM → Prop} {sent : List (PM × Bytes)} {got : List (Option PM × Bytes)} (h : Conveyed may sent got) :
    (∀ i ∈ sent, EventLine i.1 i.2) ∧ ∀ i ∈ got, Struck false i.1 i.2 := by
  induction h with
  | nil => exact ⟨by simp, by simp⟩
  | whole p l h _ _ _ ih =>
    exact ⟨List.forall_mem_cons.2 ⟨h, ih.1⟩, List.forall_mem_cons.2 ⟨.whole p l h, ih.2⟩⟩
  | changed p a b c c' h hne hb _ _ _ _ ih =>
    exact ⟨List.forall_mem_cons.2 ⟨h, ih.1⟩, List.forall_mem_cons.2 ⟨.changed p a b c c' h hne (.inr hb), ih.2⟩⟩
  | lost p l h _ _ _ _ ih => exact ⟨List.forall_mem_cons.2 ⟨h, ih.1⟩, ih.2⟩
  | noise l hl hm _ _ _ ih => exact ⟨ih.1, List.forall_mem_cons.2 ⟨.noise l hl hm, ih.2⟩⟩

theorem conveyed_append {m1 m2 m : PM → Prop} (e1 : ∀ p, m1 p → m p) (e2 : ∀ p, m2 p → m p) {s1 s2 : List (PM × Bytes)}
    {g1 g2 : List (Option PM × Bytes)} (h1 : Conveyed m1 s1 g1) (h2 : Conveyed m2 s2 g2) : Conveyed m (s1 ++ s2) (g1 ++ g2) := by
  induction h1 with
  | nil =>
    induction h2 with
    | nil => exact .nil
    | whole p l h _ _ _ ih => exact .whole p l h _ _ ih
    | changed p a b c c' h hne hb hm _ _ _ ih => exact .changed p a b c c' h hne hb (e2 p hm) _ _ ih
    | lost p l h hm _ _ _ ih => exact .lost p l h (e2 p hm) _ _ ih
    | noise l hl hm _ _ _ ih => exact .noise l hl hm _ _ ih
  | whole p l h _ _ _ ih => exact .whole p l h _ _ ih
  | changed p a b c c' h hne hb hm _ _ _ ih => exact .changed p a b c c' h hne hb (e1 p hm) _ _ ih
  | lost p l h hm _ _ _ ih => exact .lost p l h (e1 p hm) _ _ ih
  | noise l hl hm _ _ _ ih => exact .noise l hl hm _ _ ih

/-- What is said of a light that is not mentioned. -/
theorem unmentioned {g : Int} {p : PM} (h : ¬ Mentions g p) : (toldBy (some p)).filter (TellsOf g) = [] := by
  unfold toldBy
  simp only
  rw [sals_tell]
  have : p.sals.filter (SaysOf g) = [] := by
    rw [List.filter_eq_nil_iff]
    intro x hx hs
    exact h ⟨x, hx, hs⟩
  rw [this]
  rfl

theorem conveyed_told {g : Int} {sent : List (PM × Bytes)} {got : List (Option PM × Bytes)}
    (h : Conveyed (fun p => ¬ Mentions g p) sent got) :
    (sent.flatMap fun i => toldBy (some i.1)).filter (TellsOf g) = (got.flatMap fun i => toldBy i.1).filter (TellsOf g) := by
  induction h with
  | nil => rfl
  | whole p l _ _ _ _ ih => simp only [List.flatMap_cons, List.filter_append, ih]
  | changed p a b c c' _ _ _ hm _ _ _ ih =>
    have e : toldBy none = [] := rfl
    simp only [List.flatMap_cons, List.filter_append, ih, unmentioned hm, e, List.filter_nil]
  | lost p l _ hm _ _ _ ih => simp only [List.flatMap_cons, List.filter_append, ih, unmentioned hm, List.nil_append]
  | noise l _ _ _ _ _ ih =>
    have e : toldBy none = [] := rfl
    simp only [List.flatMap_cons, ih, e, List.nil_append]

/-- What is kept on the topics of a light is what the messages of that light say. -/
theorem keptOn_tells {g : Int} {t : Str} (ht : t = (topicText .lightState g).toList ∨ t = (topicText .sensorState g).toList)
    (ms : List MqttEff) : keptOn t ms = keptOn t (ms.filter (TellsOf g)) := by
  unfold keptOn
  congr 1
  induction ms with
  | nil => rfl
  | cons m ms ih =>
    rw [List.filter_cons]
    by_cases h : TellsOf g m = true
    · rw [if_pos h, List.filterMap_cons, List.filterMap_cons, ih]
    · rw [if_neg h, List.filterMap_cons]
      have : Hass.onTopic t m = none := by
        cases m with
        | publish t' p q r =>
          simp only [TellsOf, Bool.or_eq_true, decide_eq_true_eq, not_or] at h
          simp only [Hass.onTopic]
          rw [if_neg]
          rintro rfl
          rcases ht with ht | ht
          · exact h.1 ht
          · exact h.2 ht
        | _ => rfl
      rw [this, ih]

/-- A report that mentions a light leaves something on both of its topics. -/
theorem mentioned {g : Int} {p : PM} (h : Mentions g p) {t : Str}
    (ht : t = (topicText .lightState g).toList ∨ t = (topicText .sensorState g).toList) :
    (toldBy (some p)).filterMap (Hass.onTopic t) ≠ [] := by
  obtain ⟨x, hx, hs⟩ := h
  have key : ∀ y ∈ salMessages p.src [received x], y ∈ toldBy (some p) := by
    intro y hy
    have hm : y ∈ (toldBy (some p)).filter (TellsOf g) := by
      unfold toldBy
      simp only
      rw [sals_tell]
      exact List.mem_flatMap.2 ⟨x, List.mem_filter.2 ⟨hx, hs⟩, hy⟩
    exact (List.mem_filter.1 hm).1
  have fin : ∀ a b q q' r r', salMessages p.src [received x] =
      [.publish (topicText .lightState g).toList a q r, .publish (topicText .sensorState g).toList b q' r'] →
      (toldBy (some p)).filterMap (Hass.onTopic t) ≠ [] := by
    intro a b q q' r r' e hn
    rw [List.filterMap_eq_nil_iff] at hn
    rcases ht with rfl | rfl
    · have := hn _ (key _ (by rw [e]; exact List.mem_cons_self))
      simp [Hass.onTopic] at this
    · have := hn _ (key _ (by rw [e]; exact List.mem_cons_of_mem _ List.mem_cons_self))
      simp [Hass.onTopic] at this
  cases x with
  | lightOn ga =>
    simp only [SaysOf, decide_eq_true_eq] at hs
    subst hs
    exact fin _ _ _ _ _ _ rfl
  | lightOff ga =>
    simp only [SaysOf, decide_eq_true_eq] at hs
    subst hs
    exact fin _ _ _ _ _ _ rfl
  | lightRamp ga d l =>
    simp only [SaysOf, decide_eq_true_eq] at hs
    subst hs
    exact fin _ _ _ _ _ _ rfl
  | _ => simp [SaysOf] at hs

theorem getLast?_behind {α : Type} (a b c : List α) (h : b ≠ []) : (a ++ (b ++ c)).getLast? = (b ++ c).getLast? := by
  rw [List.getLast?_append]
  cases hx : (b ++ c).getLast? with
  | none => rw [List.getLast?_eq_none_iff] at hx; exact absurd (List.append_eq_nil_iff.1 hx).1 h
  | some x => rfl

/-- What the daemon publishes for what arrives. -/
def publishedFor (now : Nat → PyDateTime) (s : Client) (chunks : List Bytes) : List MqttEff :=
  messagesOf (feed maxBufferSize (Client.handle (Mqtt.cbusHook now)) chunks ⟨[], s⟩).2.1

/-- C172, for the lights of which no report is damaged or lost: of these the same is published, always. -/
theorem C172_others (now now' : Nat → PyDateTime) (hnow : ∀ n, DateTimeOk (now n)) (hnow' : ∀ n, DateTimeOk (now' n)) (g : Int)
    (s s' : Client) (hu : Up s) (hu' : Up s') (ha : s.mqttApi = true) (ha' : s'.mqttApi = true) (sent : List (PM × Bytes))
    (got : List (Option PM × Bytes)) (h : Conveyed (fun p => ¬ Mentions g p) sent got) (chunks chunks' : List Bytes)
    (hc : chunks.flatten = (sent.map (·.2)).flatten) (hc' : chunks'.flatten = (got.map (·.2)).flatten) (n : Nat)
    (hl : ∀ i ∈ sent, i.2.length ≤ n) (hl' : ∀ i ∈ got, i.2.length ≤ n) (hd : ∀ d ∈ chunks ++ chunks', d.length + n ≤ 257) :
    (publishedFor now s chunks).filter (TellsOf g) = (publishedFor now' s' chunks').filter (TellsOf g) := by
  obtain ⟨h1, h2⟩ := conveyed_sent h
  have e1 := (C64_short now hnow s hu ha sent h1 chunks hc n hl (fun d h => hd d (by simp [h]))).2.2
  obtain ⟨r, hr, -, -, e2⟩ := C171_partial now' hnow' s' hu' ha' got h2 chunks' hc' n hl' (fun d h => hd d (by simp [h]))
  subst hr
  unfold publishedFor
  rw [e1, e2]
  exact conveyed_told h

/-- C172: reports may be damaged or lost on the way, any of those before one about a light, and behind it those that are
not about it. Then in the end the broker keeps on the topics of the light what it would keep without damage, and
that is something. -/
theorem C172_healed (now now' : Nat → PyDateTime) (hnow : ∀ n, DateTimeOk (now n)) (hnow' : ∀ n, DateTimeOk (now' n)) (g : Int)
    (s s' : Client) (hu : Up s) (hu' : Up s') (ha : s.mqttApi = true) (ha' : s'.mqttApi = true)
    (sent sent' : List (PM × Bytes)) (got got' : List (Option PM × Bytes)) (p : PM) (l : Bytes) (hp : EventLine p l)
    (hg : Mentions g p) (h : Conveyed (fun _ => True) sent got) (h' : Conveyed (fun p => ¬ Mentions g p) sent' got')
    (chunks chunks' : List Bytes) (hc : chunks.flatten = ((sent ++ (p, l) :: sent').map (·.2)).flatten)
    (hc' : chunks'.flatten = ((got ++ (some p, l) :: got').map (·.2)).flatten) (n : Nat)
    (hl : ∀ i ∈ sent ++ (p, l) :: sent', i.2.length ≤ n) (hl' : ∀ i ∈ got ++ (some p, l) :: got', i.2.length ≤ n)
    (hd : ∀ d ∈ chunks ++ chunks', d.length + n ≤ 257) (t : Str)
    (ht : t = (topicText .lightState g).toList ∨ t = (topicText .sensorState g).toList) :
    keptOn t (publishedFor now s chunks) = keptOn t (publishedFor now' s' chunks') ∧ (keptOn t (publishedFor now' s' chunks')).isSome := by
  have hall : Conveyed (fun _ => True) (sent ++ (p, l) :: sent') (got ++ (some p, l) :: got') :=
    conveyed_append (fun _ h => h) (fun _ _ => trivial) h (.whole p l hp _ _ h')
  obtain ⟨h1, h2⟩ := conveyed_sent hall
  have e1 := (C64_short now hnow s hu ha _ h1 chunks hc n hl (fun d h => hd d (by simp [h]))).2.2
  obtain ⟨r, hr, -, -, e2⟩ := C171_partial now' hnow' s' hu' ha' _ h2 chunks' hc' n hl' (fun d h => hd d (by simp [h]))
  subst hr
  unfold publishedFor
  rw [e1, e2]
  have hne := mentioned hg ht
  have part : ∀ (a b : List MqttEff), keptOn t (a ++ (toldBy (some p) ++ b)) = keptOn t (toldBy (some p) ++ b) := by
    intro a b
    unfold keptOn
    rw [List.filterMap_append, List.filterMap_append]
    exact getLast?_behind _ _ _ hne
  have f1 : ((sent ++ (p, l) :: sent').flatMap fun i => salMessages i.1.src (i.1.sals.map received)) =
      (sent.flatMap fun i => toldBy (some i.1)) ++ (toldBy (some p) ++ sent'.flatMap fun i => toldBy (some i.1)) := by
    rw [List.flatMap_append, List.flatMap_cons]; rfl
  have f2 : ((got ++ (some p, l) :: got').flatMap fun i => toldBy i.1) =
      (got.flatMap fun i => toldBy i.1) ++ (toldBy (some p) ++ got'.flatMap fun i => toldBy i.1) := by
    rw [List.flatMap_append, List.flatMap_cons]
  rw [f1, f2, part, part]
  constructor
  · rw [keptOn_tells ht, keptOn_tells ht (toldBy (some p) ++ got'.flatMap fun i => toldBy i.1), List.filter_append,
      List.filter_append, conveyed_told h']
  · unfold keptOn
    rw [List.filterMap_append, Option.isSome_iff_ne_none, ne_eq, List.getLast?_eq_none_iff]
    exact fun h0 => hne (List.append_eq_nil_iff.1 h0).1

/-- Light 1 is switched on, off and on again, and the second report is damaged: it is shown wrong (on) until the
third one, and light 2 is shown right all the time. -/
example :
    let s : Client := { connected := true, mqttApi := true }
    let run := fun b => publishedFor (fun _ => someTime) s [b]
    let on1 := ascii "05053800790144\r\n"
    let off1 := ascii "050538000101BC\r\n"
    let bad := ascii "050538000100BC\r\n"
    let on2 := ascii "05053800790243\r\n"
    let light := fun g : Int => (topicText .sensorState g).toList
    keptOn (light 1) (run (on1 ++ off1 ++ on2)) = some (.text "OFF".toList) ∧
    keptOn (light 1) (run (on1 ++ bad ++ on2)) = some (.text "ON".toList) ∧
    keptOn (light 2) (run (on1 ++ bad ++ on2)) = some (.text "ON".toList) ∧
    keptOn (light 1) (run (bad ++ on2 ++ off1)) = some (.text "OFF".toList) := by decide +kernel

/-- Such a stream of reports, with one that is lost. -/
example : Conveyed (fun _ => True) [(lampOn, ascii "05053800790144\r\n"), (lampOn, ascii "05053800790144\r\n"), (lampOn, ascii "05053800790144\r\n")]
    [(none, ascii "05053800790244\r\n"), (some lampOn, ascii "05053800790144\r\n")] ∧ Mentions 1 lampOn :=
  ⟨.lost lampOn _ lampOn_line trivial _ _ <| .changed lampOn (ascii "05053800790") (ascii "44") 0x31 0x32 lampOn_line (by decide) (by decide) trivial _ _
    (.whole lampOn _ lampOn_line _ _ .nil), .lightOn 1, by simp [lampOn], rfl⟩

end CBus.Props
