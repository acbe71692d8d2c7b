import Verif.Props.Said
import Verif.Spec.Foretold

/-! # C167: what is shown of a light has been announced -/

namespace CBus.Props
open CBus CBus.Spec

theorem command_lighting {d rest : Bytes} {s : Option SAL} (h : Command .lighting d s rest) (x : SAL) (hx : s = some x) :
    ∀ src e, salEvent src x = some e → ∀ ga, Moved ga e → ga ∈ groupAddresses := by
  have range : ∀ b : UInt8, (b.toNat : Int) ∈ groupAddresses := fun b =>
    List.mem_map.2 ⟨b.toNat, List.mem_range.2 (by have := b.toNat_lt; omega), rfl⟩
  intro src e he ga hm
  subst hx
  cases h <;> simp only [salEvent, Option.some.injEq] at he <;> subst he <;> cases hm <;> exact range _

theorem reads_lighting {d : Bytes} {r : Py (List SAL)} (h : Reads .lighting d r) :
    ∀ sals, r = .ok sals → ∀ s ∈ sals, ∀ src e, salEvent src s = some e → ∀ ga, Moved ga e → ga ∈ groupAddresses := by
  induction h with
  | command d s rest r hc _ ih =>
    intro sals hs x hx
    cases r with
    | error e => cases hs
    | ok l =>
      cases hs
      rcases List.mem_append.1 hx with hx | hx
      · cases s with
        | none => cases hx
        | some y =>
          cases List.mem_singleton.1 hx
          exact command_lighting hc _ rfl
      · exact ih l rfl x hx
  | refused => intro sals hs; cases hs
  | stop => intro sals hs; cases hs; simp

theorem said_group {line : Bytes} {e : Event} (h : LineSays line e) (ga : Int) (hm : Moved ga e) : ga ∈ groupAddresses := by
  obtain ⟨flags, src, x, data, sals, s, -, -, -, -, hr, hs, he⟩ := h
  exact reads_lighting hr sals rfl s hs _ e he ga hm

/-- A message that shows the state of a group and announces nothing. -/
def Shows (m : MqttEff) : Prop :=
  ∃ ga ∈ groupAddresses, ∃ t p, m = .publish t p 1 true ∧ ShowsState ga t ∧
    ∀ v, p = .json (.obj v) → dictGet v "cmd_t".toList = none

theorem state_no_command (ga : Int) (on : Bool) (l : PyNum) (d : Int) (src : Option Int) (t : Str) (p : MqttPayload) (q : Nat) (r : Bool)
    (h : stateMessage ga on l d src = .publish t p q r) : ∀ v, p = .json (.obj v) → dictGet v "cmd_t".toList = none := by
  intro v hv
  simp only [stateMessage, MqttEff.publish.injEq] at h
  obtain ⟨-, rfl, -, -⟩ := h
  cases hv
  rfl

theorem pair_shows' {ga : Int} (hg : ga ∈ groupAddresses) {on on' : Bool} {l : PyNum} {d : Int} {src : Option Int} {m : MqttEff}
    (h : m ∈ [stateMessage ga on l d src, sensorMessage ga on']) : Shows m := by
  simp only [List.mem_cons, List.not_mem_nil, or_false] at h
  rcases h with rfl | rfl
  · exact ⟨ga, hg, _, _, rfl, .inl rfl, state_no_command ga on l d src _ _ _ _ rfl⟩
  · refine ⟨ga, hg, _, _, rfl, .inr rfl, ?_⟩
    intro v hv
    cases hv

theorem eventMessages_shows {e : Event} (he : ∀ ga, Moved ga e → ga ∈ groupAddresses) {m : MqttEff} (h : m ∈ eventMessages e) :
    Shows m := by
  cases e with
  | lightingOn src ga => exact pair_shows' (he ga (.on src)) h
  | lightingOff src ga => exact pair_shows' (he ga (.off src)) h
  | lightingRamp src ga d l => exact pair_shows' (he ga (.ramp src d l)) h
  | _ => simp [eventMessages] at h

theorem forLight_group {u : UniTable} {topic : Str} {ga : Int} (h : ForLight u topic ga) : ga ∈ groupAddresses := by
  obtain ⟨_, _, _, _, _, _, _, h0, h1⟩ := h
  exact List.mem_map.2 ⟨ga.toNat, List.mem_range.2 (by omega), by
    show Int.ofNat ga.toNat = ga
    exact Int.toNat_of_nonneg h0⟩

/-- A step but a connection to the broker publishes only states, and only if there has been one or it is a message. -/
theorem does_shows {u : UniTable} {read : Bytes → JVal → Prop} {now : Nat → PyDateTime} {ts : Int} {x : DaemonStep}
    {d d' : DaemonState} {o : List (Eff MqttEff)} {r : Py Unit} (h : Does u read now ts x d o d' r)
    (hx : ∀ labels, x ≠ .broker labels) {m : MqttEff} (hm : Eff.ext m ∈ o) :
    Shows m ∧ (d.broker = true ∨ ∃ t p, x = .message t p) := by
  cases h with
  | made =>
    simp only [setUp, List.mem_append, List.mem_cons, List.not_mem_nil, or_false, reduceCtorEq, false_or] at hm
    split at hm <;> simp at hm
  | receive _ b b' _ k' _ h =>
    by_cases hd : d.broker = true
    · refine ⟨?_, .inl hd⟩
      have hw : ∀ e, (if d.broker then eventMessages e else []) ⊆ eventMessages e := by
        intro e x hx
        rw [if_pos hd] at hx
        exact hx
      obtain ⟨line, e, h1, h2, h3⟩ := converses_reported (m := ⟨true, _, now⟩) hw h _ hm
      exact eventMessages_shows (said_group h2) h3
    · have hh := handles_none (m := ⟨true, fun e => if d.broker then eventMessages e else [], now⟩) (fun e => by simp [hd]) h
      exact absurd hm (hh m)
  | tick => simp at hm
  | broker _ labels _ h => exact absurd rfl (hx labels)
  | message =>
    rcases List.mem_cons.1 hm with hm | hm
    · cases hm
    · have hg := forLight_group ‹_›
      refine ⟨?_, .inr ⟨_, _, rfl⟩⟩
      have hm := ext_mem hm
      cases ‹Answers _ _ _› with
      | off => exact pair_shows' hg hm
      | on => exact pair_shows' hg hm
      | ramp => exact pair_shows' hg hm
  | _ => cases hm
where
  hears_none {m : Manner MqttEff} (hs : ∀ e, m.says e = []) {d d' : Bytes} {k k' : Count} {o : List (Eff MqttEff)} {r : Py Unit}
      (h : Hears m d k o d' k' r) : ∀ x, Eff.ext x ∉ o := by
    have hh : ∀ {es : List Event} {k k' : Count} {o : List (Eff MqttEff)}, Handles m es k o k' → ∀ x, Eff.ext x ∉ o := by
      intro es k k' o h
      induction h with
      | nil => simp
      | clock _ _ _ _ _ _ _ _ _ ih => intro x; simp [ih x]
      | noClock _ _ _ _ _ _ _ ih => intro x; simp [ih x]
      | other e _ _ _ _ _ _ ih => intro x; simp [hs e, ih x]
    induction h with
    | waits => simp
    | fault => simp
    | skips _ _ _ _ _ _ _ _ _ _ ih => exact ih
    | message _ _ _ _ _ _ _ _ _ _ _ ho _ ih =>
      intro x hx
      rcases List.mem_append.1 hx with hx | hx
      · exact hh ho x hx
      · exact ih x hx
  handles_none {m : Manner MqttEff} (hs : ∀ e, m.says e = []) {b b' d : Bytes} {k k' : Count} {o : List (Eff MqttEff)} {r : Py Unit}
      (h : Converses m b k [d] o b' k' r) : ∀ x, Eff.ext x ∉ o := by
    cases h with
    | huge => simp
    | overflow => simp
    | ends _ _ _ _ _ _ _ _ _ h => exact hears_none hs h
    | goesOn _ _ _ _ _ _ _ _ _ _ _ _ h hr => cases hr; rw [List.append_nil]; exact hears_none hs h

/-- Only a connection to the broker changes whether there has been one. -/
theorem does_broker {u : UniTable} {read : Bytes → JVal → Prop} {now : Nat → PyDateTime} {ts : Int} {x : DaemonStep}
    {d d' : DaemonState} {o : List (Eff MqttEff)} {r : Py Unit} (h : Does u read now ts x d o d' r)
    (hx : ∀ labels, x ≠ .broker labels) : d'.broker = d.broker := by
  cases h with
  | broker _ labels => exact absurd rfl (hx labels)
  | _ => rfl

/-- All is announced: the state of every group, as a light and as a sensor. -/
def AllTold (pre : List (Eff MqttEff)) : Prop :=
  ∀ ga ∈ groupAddresses, ∀ t, ShowsState ga t → ∃ y, Eff.ext y ∈ pre ∧ Foretells t y

theorem configures_told {labels : List (Int × Str)} {gas : List Int} {o : List MqttEff} (h : Configures labels gas o) :
    ∀ ga ∈ gas, ∀ t, ShowsState ga t → ∃ y ∈ o, Foretells t y := by
  induction h with
  | nil => simp
  | cons g gas v w o hv hw _ ih =>
    intro ga hg t ht
    rcases List.mem_cons.1 hg with rfl | hg
    · rcases ht with rfl | rfl
      · exact ⟨_, List.mem_cons_self, _, v, 1, rfl, topic_suffix .lightConfig ga, hv.stat⟩
      · exact ⟨_, List.mem_cons_of_mem _ List.mem_cons_self, _, w, 1, rfl, topic_suffix .sensorConfig ga, hw.stat⟩
    · obtain ⟨y, h1, h2⟩ := ih ga hg t ht
      exact ⟨y, List.mem_cons_of_mem _ (List.mem_cons_of_mem _ h1), h2⟩

theorem configures_commands {labels : List (Int × Str)} {gas : List Int} {o : List MqttEff} (h : Configures labels gas o)
    {t c : Str} {v : List (Str × JVal)} {q : Nat} {r : Bool} (hm : MqttEff.publish t (.json (.obj v)) q r ∈ o)
    (hc : dictGet v "cmd_t".toList = some (.str c)) : ∃ ga ∈ gas, c = (topicText .lightSet ga).toList := by
  induction h with
  | nil => cases hm
  | cons g gas v' w o hv hw _ ih =>
    rcases List.mem_cons.1 hm with hm | hm
    · cases hm
      rw [hv.cmd] at hc
      cases hc
      exact ⟨g, List.mem_cons_self, rfl⟩
    rcases List.mem_cons.1 hm with hm | hm
    · cases hm
      have : dictGet v "cmd_t".toList = none := keys_none hw.nothing_else (by decide +kernel)
      rw [this] at hc
      cases hc
    · obtain ⟨ga, h1, h2⟩ := ih hm
      exact ⟨ga, List.mem_cons_of_mem _ h1, h2⟩
where
  keys_none {v : List (Str × JVal)} {ks : List Str} {k : Str} (h : v.map (·.1) = ks) (hk : k ∉ ks) : dictGet v k = none := by
    subst h
    unfold dictGet
    rw [List.find?_eq_none.2, Option.map_none]
    intro x hx he
    exact hk (of_decide_eq_true he ▸ List.mem_map_of_mem hx)

theorem announces_told {labels : List (Int × Str)} {o : List MqttEff} (h : Announces labels o) : AllTold (o.map .ext) := by
  cases h with
  | all v o hv h =>
    intro ga hg t ht
    obtain ⟨y, h1, h2⟩ := configures_told h ga hg t ht
    exact ⟨y, List.mem_map_of_mem (List.mem_cons_of_mem _ (List.mem_cons_of_mem _ h1)), h2⟩

theorem mem_split {α : Type} {a b c d : List α} {x : α} (h : a ++ b = c ++ x :: d) :
    (∃ d', a = c ++ x :: d') ∨ ∃ c', c = a ++ c' ∧ b = c' ++ x :: d := by
  rcases List.append_eq_append_iff.1 h with ⟨c', h1, h2⟩ | ⟨d', h1, h2⟩
  · exact .inr ⟨c', h1, h2⟩
  · cases d' with
    | nil => exact .inr ⟨[], by simpa using h1.symm, by simpa using h2.symm⟩
    | cons y d' =>
      injection h2 with h2 h3
      subst h2
      exact .inl ⟨d', h1⟩

/-- What comes before each message, for all histories. -/
theorem lives_told {u : UniTable} {read : Bytes → JVal → Prop} {now : Nat → PyDateTime} {ts : Int} {xs : List DaemonStep}
    {d d' : DaemonState} {os : List (List (Eff MqttEff) × Py Unit)} (h : Lives u read now ts xs d os d')
    {b : Bool} (ha : OnlyAccepted b xs) (pre : List (Eff MqttEff)) (hb : b = true → AllTold pre) (hd : d.broker = b)
    (before after : List (Eff MqttEff)) (m : MqttEff) (ho : os.flatMap (·.1) = before ++ .ext m :: after) :
    (∀ t p q r, m = .publish t p q r → ¬ "/config".toList <:+ t → ∃ y, Eff.ext y ∈ pre ++ before ∧ Foretells t y) ∧
    (∀ t v q r c, m = .publish t (.json (.obj v)) q r → dictGet v "cmd_t".toList = some (.str c) →
      ∃ y, Eff.ext y ∈ pre ++ before ∧ ListensTo c y) := by
  induction h generalizing b pre before with
  | nil => simp at ho
  | cons x xs d d1 d2 o r os h hr ih =>
    replace ho : o ++ os.flatMap (·.1) = before ++ .ext m :: after := ho
    have told_mono : ∀ {a b : List (Eff MqttEff)}, AllTold a → AllTold (a ++ b) := by
      intro a b h ga hg t ht
      obtain ⟨y, h1, h2⟩ := h ga hg t ht
      exact ⟨y, List.mem_append_left _ h1, h2⟩
    have rest : ∀ {b' : Bool}, OnlyAccepted b' xs → (b' = true → AllTold (pre ++ o)) → d1.broker = b' →
        ∀ c', before = o ++ c' → os.flatMap (·.1) = c' ++ .ext m :: after →
        (∀ t p q r, m = .publish t p q r → ¬ "/config".toList <:+ t → ∃ y, Eff.ext y ∈ pre ++ before ∧ Foretells t y) ∧
        (∀ t v q r c, m = .publish t (.json (.obj v)) q r → dictGet v "cmd_t".toList = some (.str c) →
          ∃ y, Eff.ext y ∈ pre ++ before ∧ ListensTo c y) := by
      intro b' h1 h2 h3 c' h4 h5
      have := ih h1 (pre ++ o) h2 h3 c' h5
      rw [List.append_assoc, ← h4] at this
      exact this
    by_cases hx : ∃ labels, x = .broker labels
    · obtain ⟨labels, rfl⟩ := hx
      have ha' : OnlyAccepted true xs := by
        cases ha with
        | broker _ _ _ h => exact h
        | other _ _ _ h => exact absurd rfl (h labels)
      cases h with
      | broker _ _ o h =>
        rcases mem_split ho with ⟨d', h1⟩ | ⟨c', h1, h2⟩
        · have hmem : m ∈ o := ext_mem (h1 ▸ List.mem_append_right _ List.mem_cons_self)
          refine ⟨?_, ?_⟩
          · rintro t p q r rfl hn
            exact absurd (announces_config h hmem) hn
          · rintro t v q r c rfl hc
            cases h with
            | all w o hw h =>
              rw [List.map_cons] at h1
              cases before with
              | nil => cases h1
              | cons z before =>
                injection h1 with h1 _
                subst h1
                refine ⟨_, List.mem_append_right _ List.mem_cons_self, _, 2, rfl, ?_⟩
                rcases List.mem_cons.1 hmem with hmem | hmem
                · cases hmem
                rcases List.mem_cons.1 hmem with hmem | hmem
                · cases hmem
                  rw [configures_commands.keys_none hw.nothing_else (by decide +kernel)] at hc
                  cases hc
                · obtain ⟨ga, g1, g2⟩ := configures_commands h hmem hc
                  exact List.mem_map.2 ⟨ga, g1, by rw [g2]⟩
        · exact rest ha' (fun _ ga hg t ht => by
            obtain ⟨y, g1, g2⟩ := announces_told h ga hg t ht
            exact ⟨y, List.mem_append_right _ g1, g2⟩) rfl c' h1 h2
    · have hx : ∀ labels, x ≠ .broker labels := fun l e => hx ⟨l, e⟩
      have hbr := does_broker h hx
      have ha' : OnlyAccepted b xs ∧ ((∃ t p, x = .message t p) → b = true) := by
        cases ha with
        | broker _ labels => exact absurd rfl (hx labels)
        | message _ _ _ h => exact ⟨h, fun _ => rfl⟩
        | other _ _ _ _ hm h => exact ⟨h, fun ⟨t, p, e⟩ => absurd e (hm t p)⟩
      rcases mem_split ho with ⟨d', h1⟩ | ⟨c', h1, h2⟩
      · obtain ⟨⟨ga, hg, t, p, rfl, hs, hv⟩, hw⟩ := does_shows h hx (m := m) (h1 ▸ List.mem_append_right _ List.mem_cons_self)
        have hb' : b = true := by
          rcases hw with hw | hw
          · rw [← hd, hw]
          · exact ha'.2 hw
        refine ⟨?_, ?_⟩
        · rintro t' p' q r e -
          cases e
          exact told_mono (hb hb') ga hg t hs
        · rintro t' v q r c e hc
          cases e
          rw [hv v rfl] at hc
          cases hc
      · exact rest ha'.1 (fun hb' => told_mono (hb hb')) (hbr.trans hd) c' h1 h2

/-- C167: over every history from the start of the daemon – connections made and lost on both sides, any bytes
received, any messages –, whatever is published that is not a configuration is on a topic that a configuration
published before has named as that of a state. -/
theorem C167_announced (u : UniTable) (loads : Bytes → Option JVal) (now : Nat → PyDateTime) (hnow : ∀ n, DateTimeOk (now n))
    (c : Conn Client) (hk : c.st.nextConf < 20) (hs : c.st.mqttApi = false) (xs : List DaemonStep)
    (hx : OnlyConnected c.st.connected xs) (ha : OnlyAccepted false xs) (before after : List (Eff MqttEff)) (t : Str)
    (p : MqttPayload) (q : Nat) (r : Bool)
    (ho : (daemonRun u loads now xs c).2.flatMap (·.1) = before ++ .ext (.publish t p q r) :: after)
    (hn : ¬ "/config".toList <:+ t) : ∃ y, Eff.ext y ∈ before ∧ Foretells t y := by
  obtain ⟨d, h, -⟩ := (C104_daemon u loads now hnow c hk xs hx _ _).1 rfl
  exact (lives_told h ha [] (by simp) hs before after _ ho).1 t p q r rfl hn

/-- C167: no light is announced before the daemon listens to the topic that is named for its commands. -/
theorem C167_listens (u : UniTable) (loads : Bytes → Option JVal) (now : Nat → PyDateTime) (hnow : ∀ n, DateTimeOk (now n))
    (c : Conn Client) (hk : c.st.nextConf < 20) (hs : c.st.mqttApi = false) (xs : List DaemonStep)
    (hx : OnlyConnected c.st.connected xs) (ha : OnlyAccepted false xs) (before after : List (Eff MqttEff)) (t topic : Str)
    (v : List (Str × JVal)) (q : Nat) (r : Bool)
    (ho : (daemonRun u loads now xs c).2.flatMap (·.1) = before ++ .ext (.publish t (.json (.obj v)) q r) :: after)
    (hc : dictGet v "cmd_t".toList = some (.str topic)) : ∃ y, Eff.ext y ∈ before ∧ ListensTo topic y := by
  obtain ⟨d, h, -⟩ := (C104_daemon u loads now hnow c hk xs hx _ _).1 rfl
  exact (lives_told h ha [] (by simp) hs before after _ ho).2 t v q r topic rfl hc

/-- C167: without a connection to the broker nothing is published at all. -/
theorem C167_silent (u : UniTable) (loads : Bytes → Option JVal) (now : Nat → PyDateTime) (hnow : ∀ n, DateTimeOk (now n))
    (c : Conn Client) (hk : c.st.nextConf < 20) (hs : c.st.mqttApi = false) (xs : List DaemonStep)
    (hx : OnlyConnected c.st.connected xs) (hb : ∀ labels, .broker labels ∉ xs) (hm : ∀ t p, .message t p ∉ xs) (m : MqttEff) :
    Eff.ext m ∉ (daemonRun u loads now xs c).2.flatMap (·.1) := by
  obtain ⟨d, h, -⟩ := (C104_daemon u loads now hnow c hk xs hx _ _).1 rfl
  have hs' : (stateOf c).broker = false := hs
  generalize (daemonRun u loads now xs c).2 = os at h ⊢
  generalize stateOf c = d0 at h hs'
  clear hx
  induction h with
  | nil => simp
  | cons x xs d d1 d2 o r os h hr ih =>
    have hb0 : ∀ labels, x ≠ .broker labels := fun l e => hb l (e ▸ List.mem_cons_self)
    intro hmem
    rw [List.flatMap_cons] at hmem
    rcases List.mem_append.1 hmem with hmem | hmem
    · rcases (does_shows h hb0 hmem).2 with hw | ⟨t, p, rfl⟩
      · rw [hs'] at hw
        cases hw
      · exact hm t p List.mem_cons_self
    · exact ih (fun l hl => hb l (List.mem_cons_of_mem _ hl)) (fun t p hl => hm t p (List.mem_cons_of_mem _ hl))
        ((does_broker h hb0).trans hs') hmem

/-- A report before there is a broker, the connection, and the same report again. -/
example : OnlyAccepted false [.made, .receive (ascii "05033800790146\r\n"), .broker [], .receive (ascii "05033800790146\r\n"), .message [] []] :=
  .other _ _ _ (by simp) (by simp) (.other _ _ _ (by simp) (by simp) (.broker _ _ _ (.other _ _ _ (by simp) (by simp)
    (.message _ _ _ (.nil _)))))

example :
    let o := (daemonRun .ascii (fun _ => none) (fun _ => someTime) [.receive (ascii "05033800790146\r\n"), .broker [],
      .receive (ascii "05033800790146\r\n")] ⟨[], { connected := true }⟩).2.map (fun x => (x.1.length, x.1.getLast?))
    o = [(1, some (.event (.lightingOn (some 3) 1))),
      (514, some (.ext (.publish "homeassistant/binary_sensor/cbus_255/config".toList
        (.json (Mqtt.binSensorConfig "C-Bus Light 255".toList 255)) 1 true))),
      (3, some (.ext (sensorMessage 1 true)))] := by decide +kernel

end CBus.Props
