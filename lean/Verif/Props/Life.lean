import Verif.Props.Session
import Verif.Props.Scripts
import Verif.Props.Histories

/-! # C104: all that the daemon does with all that happens to it -/

namespace CBus.Props
open CBus CBus.Spec

/-! ## Payloads -/

theorem utf8Text_iff (b : Bytes) (s : Str) : CBus.Json.utf8Text b = some s ↔ b = Json.utf8 s := by
  constructor
  · intro h
    have he : ∀ s : Str, ByteArray.mk (Json.utf8 s).toArray = List.utf8Encode s := by
      intro s
      unfold List.utf8Encode Json.utf8
      apply ByteArray.ext
      simp
    unfold CBus.Json.utf8Text at h
    rw [Option.map_eq_some_iff] at h
    obtain ⟨a, h1, rfl⟩ := h
    have h2 : (ByteArray.mk b.toArray).utf8Decode?.isSome := by rw [h1]; rfl
    have h3 := ByteArray.utf8Encode_get_utf8Decode? (h := h2)
    have h4 : (ByteArray.mk b.toArray).utf8Decode?.get h2 = a := by simp [h1]
    rw [h4, ← he] at h3
    injection h3 with h3
    exact (List.toArray_inj h3).symm
  · rintro rfl
    exact CBus.Json.utf8Text_utf8 s

theorem detectUtf8_iff (b : Bytes) : CBus.Json.detectUtf8 b = false ↔ Marked b := by
  have hbom : CBus.Json.bom b = true ↔ [0, 0, 0xfe, 0xff] <+: b ∨ [0xff, 0xfe, 0, 0] <+: b ∨ [0xfe, 0xff] <+: b ∨
      [0xff, 0xfe] <+: b ∨ [0xef, 0xbb, 0xbf] <+: b := by
    simp [CBus.Json.bom, List.isPrefixOf_iff_prefix]
  have hff : [0xff, 0xfe, 0, 0] <+: b → [0xff, 0xfe] <+: b := fun h => List.IsPrefix.trans ⟨[0, 0], rfl⟩ h
  have hz : ∀ x y : UInt8, ∀ r : Bytes, (x :: y :: r)[0]? = some 0 ∨ (x :: y :: r)[1]? = some 0 ↔ x = 0 ∨ y = 0 := by
    intro x y r; simp
  unfold CBus.Json.detectUtf8 Marked
  rw [Bool.and_eq_false_iff, Bool.not_eq_false', hbom]
  have hrest : (if 4 ≤ b.length then b.take 2 |>.all (· ≠ 0) else if b.length = 2 then b.all (· ≠ 0) else true) = false ↔
      (b.length = 2 ∨ 4 ≤ b.length) ∧ (b[0]? = some 0 ∨ b[1]? = some 0) := by
    match b with
    | [] => simp
    | [x] => simp
    | [x, y] => rw [hz]; simp [Classical.or_iff_not_imp_left]
    | [x, y, z] => simp
    | x :: y :: z :: w :: r =>
      rw [hz]
      have h4 : 4 ≤ (x :: y :: z :: w :: r).length := by simp
      rw [if_pos h4]
      simp [Classical.or_iff_not_imp_left]
  rw [hrest]
  constructor
  · rintro ((h | h | h | h | h) | h)
    · exact .inr (.inr (.inr (.inl h)))
    · exact .inr (.inr (.inl (hff h)))
    · exact .inr (.inl h)
    · exact .inr (.inr (.inl h))
    · exact .inl h
    · exact .inr (.inr (.inr (.inr h)))
  · rintro (h | h | h | h | h)
    · exact .inl (.inr (.inr (.inr (.inr h))))
    · exact .inl (.inr (.inr (.inl h)))
    · exact .inl (.inr (.inr (.inr (.inl h))))
    · exact .inl (.inl h)
    · exact .inr h

/-- C104: what a payload means, down to its bytes. -/
theorem C104_payload (env : CBus.Json.JEnv) (b : Bytes) (v : JVal) :
    CBus.Json.loads env b = some v ↔ Payload env b v := by
  constructor
  · intro h
    unfold CBus.Json.loads at h
    split at h
    · cases h
    · rename_i s hs
      have hj := (C100_loads env s v).1 h
      split at hs
      · cases hu : CBus.Json.utf8Text b with
        | some t =>
          rw [hu] at hs
          cases hs
          exact .inl ⟨s, (utf8Text_iff b s).1 hu, hj⟩
        | none =>
          rw [hu] at hs
          refine .inr ⟨.inr fun t ht => ?_, s, hs, hj⟩
          rw [(utf8Text_iff b t).2 ht] at hu
          cases hu
      · rename_i hd
        exact .inr ⟨.inl ((detectUtf8_iff b).1 (by simpa using hd)), s, hs, hj⟩
  · rintro (⟨s, rfl, h⟩ | ⟨hm, s, ho, h⟩)
    · exact C100_bytes env s v h
    · unfold CBus.Json.loads
      have : (if CBus.Json.detectUtf8 b then (CBus.Json.utf8Text b).or (env.other b) else env.other b) = some s := by
        rcases hm with hm | hm
        · rw [(detectUtf8_iff b).2 hm]; exact ho
        · have hn : CBus.Json.utf8Text b = none := by
            cases hu : CBus.Json.utf8Text b with
            | none => rfl
            | some t => exact absurd ((utf8Text_iff b t).1 hu) (hm t)
          rw [hn]
          split <;> simpa using ho
      rw [this]
      exact (C100_loads env s v).2 h

/-! ## Topics -/

/-- C104: the topics that are acted on. -/
theorem C104_topic (u : UniTable) (topic : Str) (ga : Int) : IsSetTopic u topic ga ↔ ForLight u topic ga := by
  constructor
  · rintro ⟨⟨t, rfl⟩, h2, h3⟩
    have hb := address_byte h3
    unfold getTopicGroupAddress at h3
    split at h3
    · cases h3
    · have hd : List.drop lightTopicPrefix.length ("homeassistant/light/cbus_".toList ++ t) = t := by
        show List.drop lightTopicPrefix.length (lightTopicPrefix ++ t) = t
        exact List.drop_left
      rw [hd] at h3
      split at h3
      · cases h3
      · rename_i x hx
        split at h3
        · cases h3
        · cases h3
          refine ⟨t.takeWhile (· ≠ '/'), t.dropWhile (· ≠ '/'), ?_, ?_, ?_, h2, ((C96_decimal u _).1 ga).1 hx, hb.1, ?_⟩
          · rw [List.append_assoc, List.takeWhile_append_dropWhile]
          · intro hm
            have := List.all_takeWhile (p := (· ≠ '/')) (l := t)
            rw [List.all_eq_true] at this
            simpa using this _ hm
          · cases hdw : t.dropWhile (· ≠ '/') with
            | nil => exact .inl rfl
            | cons c r =>
              right
              have := List.head?_dropWhile_not (· ≠ '/') t
              rw [hdw] at this
              simp at this
              simp [this]
          · have := hb.2; omega
  · rintro ⟨number, rest, rfl, h1, h2, h3, h4, h5, h6⟩
    refine ⟨⟨number ++ rest, (List.append_assoc _ _ _).symm⟩, h3, ?_⟩
    have hs : Str.startsWith ("homeassistant/light/cbus_".toList ++ number ++ rest) lightTopicPrefix = true :=
      List.isPrefixOf_iff_prefix.2 ⟨number ++ rest, (List.append_assoc _ _ _).symm⟩
    have hd : List.drop lightTopicPrefix.length ("homeassistant/light/cbus_".toList ++ number ++ rest) = number ++ rest := by
      rw [List.append_assoc]
      show List.drop lightTopicPrefix.length (lightTopicPrefix ++ (number ++ rest)) = number ++ rest
      exact List.drop_left
    have ht : (number ++ rest).takeWhile (· ≠ '/') = number := by
      rw [List.takeWhile_append_of_pos (by
        intro c hc
        simp only [decide_eq_true_eq]
        rintro rfl
        exact h1 hc)]
      have : rest.takeWhile (· ≠ '/') = [] := by
        rcases h2 with rfl | h2
        · rfl
        · cases rest with
          | nil => rfl
          | cons c r =>
            simp at h2
            subst h2
            simp
      rw [this, List.append_nil]
    have hc : checkGa ga = .ok () := by
      unfold checkGa validateGa
      rw [if_pos]
      simp
      omega
    unfold getTopicGroupAddress
    rw [hs, hd, ht, ((C96_decimal u number).1 ga).2 h4]
    simp only [Bool.not_true, Bool.false_eq_true, if_false, hc]

theorem forLight_unique {u : UniTable} {topic : Str} {ga ga' : Int} (h : ForLight u topic ga) (h' : ForLight u topic ga') :
    ga = ga' := by
  have h1 := ((C104_topic u topic ga).2 h).2.2
  rw [((C104_topic u topic ga').2 h').2.2] at h1
  cases h1
  rfl

/-! ## Set messages -/

theorem means_unique {u : UniTable} {v : JVal} {m m' : SetMessage} (h : Means u v m) (h' : Means u v m') :
    m.on = m'.on ∧ clamp m.brightness = clamp m'.brightness ∧ (m.brightness < 0 ↔ m'.brightness < 0) ∧
      max 0 m.transition = max 0 m'.transition := by
  have h1 := readPayload_means u h
  rw [readPayload_means u h'] at h1
  injection h1 with h1
  simp only [Prod.mk.injEq] at h1
  obtain ⟨h2, h3, h4⟩ := h1
  refine ⟨h2.symm, ?_, ?_, h4.symm⟩
  · split at h3 <;> split at h3 <;> first | cases h3; done | skip
    · unfold clamp; omega
    · injection h3 with h3; exact h3.symm
  · split at h3 <;> split at h3 <;> first | cases h3; done | skip
    · omega
    · omega

theorem setBytes_iff (m : SetMessage) (ga : Int) (t : PyDateTime) (wd : PyDate → Nat) (b : Bytes) :
    SetBytes m ga b ↔ b = (m.call ga).frame t wd := by
  have hk : ∀ q ∈ rampDurations, ∀ k : Nat, rampDurations[k]? = some q ↔ k = rampDurations.idxOf q := by
    have key : ∀ q ∈ rampDurations, ∀ k : Fin 16, rampDurations[k.1]? = some q ↔ k.1 = rampDurations.idxOf q := by
      decide +kernel
    intro q hq k
    by_cases hk : k < 16
    · exact key q hq ⟨k, hk⟩
    · have : rampDurations.length = 16 := rfl
      rw [List.getElem?_eq_none (by omega)]
      have := List.idxOf_lt_length_of_mem hq
      constructor
      · intro h; cases h
      · intro h; omega
  have hon : 255 ≤ m.brightness ∧ m.transition ≤ 0 ↔ clamp m.brightness = 255 ∧ max 0 m.transition = 0 := by
    unfold clamp; omega
  unfold SetMessage.call
  constructor
  · intro h
    cases h with
    | off h => rw [h]; rfl
    | on h hb ht => rw [h, if_pos rfl, if_pos (hon.1 ⟨hb, ht⟩)]; rfl
    | ramp k q h hb hq hkq =>
      rw [h, if_pos rfl, if_neg (by rw [← hon]; omega)]
      have e1 := quantise_unique _ _ hq
      subst e1
      have := (hk _ hq.1 k).1 hkq
      subst this
      rfl
  · rintro rfl
    cases h : m.on with
    | false => exact .off h
    | true =>
      rw [if_pos rfl]
      by_cases hc : clamp m.brightness = 255 ∧ max 0 m.transition = 0
      · rw [if_pos hc]
        have := hon.2 hc
        exact .on h this.1 this.2
      · rw [if_neg hc]
        have hq := quantise_spec (max 0 m.transition)
        refine .ramp _ _ h ?_ hq ((hk _ hq.1 _).2 rfl)
        rw [← hon] at hc
        omega

theorem answers_iff (m : SetMessage) (ga : Int) (hb : 0 ≤ m.brightness ∨ m.on = false) (o : List MqttEff) :
    Answers m ga o ↔ o = m.messages ga := by
  have hon : 255 ≤ m.brightness ∧ m.transition ≤ 0 ↔ clamp m.brightness = 255 ∧ max 0 m.transition = 0 := by
    unfold clamp; omega
  have hlit : m.on = true → Lit (.int (clamp m.brightness)) = decide (0 < m.brightness) := by
    intro ho
    rw [ho] at hb
    have hb : 0 ≤ m.brightness := by rcases hb with h | h; exact h; cases h
    unfold Lit PyNum.gtRat
    simp only [decide_eq_decide]
    rw [show (0 : Rat) = ((0 : Int) : Rat) from rfl, Rat.intCast_lt_intCast]
    unfold clamp
    omega
  unfold SetMessage.messages
  constructor
  · intro h
    cases h with
    | off h => rw [h]; rfl
    | on h hb ht => rw [h, if_pos rfl, if_pos (hon.1 ⟨hb, ht⟩)]; rfl
    | ramp h hb => rw [h, if_pos rfl, if_neg (by rw [← hon]; omega), ← hlit h]; rfl
  · rintro rfl
    cases h : m.on with
    | false => exact .off h
    | true =>
      rw [if_pos rfl]
      by_cases hc : clamp m.brightness = 255 ∧ max 0 m.transition = 0
      · rw [if_pos hc]
        have := hon.2 hc
        exact .on h this.1 this.2
      · rw [if_neg hc]
        show Answers m ga [_, sensorMessage ga (Lit _)]
        rw [hlit h]
        refine .ramp h ?_
        rw [← hon] at hc
        omega

/-! ## Announcements -/

theorem dict_ext {α : Type} : ∀ (v w : List (Str × α)), v.map (·.1) = w.map (·.1) → (v.map (·.1)).Nodup →
    (∀ k ∈ v.map (·.1), dictGet v k = dictGet w k) → v = w := by
  intro v
  induction v with
  | nil => intro w hk _ _; cases w with | nil => rfl | cons p w => cases hk
  | cons p v ih =>
    intro w hk hn h
    cases w with
    | nil => cases hk
    | cons q w =>
      obtain ⟨k, x⟩ := p
      obtain ⟨k', y⟩ := q
      simp only [List.map_cons, List.cons.injEq] at hk
      obtain ⟨rfl, hk⟩ := hk
      simp only [List.map_cons, List.nodup_cons] at hn
      have h0 := h k (by simp)
      rw [dictGet_cons, dictGet_cons, if_pos rfl, if_pos rfl] at h0
      cases h0
      rw [ih w hk hn.2 fun k' hk' => ?_]
      have h1 := h k' (by simp [hk'])
      have hne : k ≠ k' := by rintro rfl; exact hn.1 hk'
      rwa [dictGet_cons, dictGet_cons, if_neg hne, if_neg hne] at h1

theorem lightConfig_unique {name : Str} {ga : Int} {v w : List (Str × JVal)} (hv : IsLightConfig name ga v)
    (hw : IsLightConfig name ga w) : v = w := by
  refine dict_ext v w (hv.nothing_else.trans hw.nothing_else.symm) (by rw [hv.nothing_else]; decide +kernel) ?_
  rw [hv.nothing_else]
  intro k hk
  simp only [List.map_cons, List.map_nil, List.mem_cons, List.not_mem_nil, or_false] at hk
  rcases hk with rfl | rfl | rfl | rfl | rfl | rfl | rfl
  · rw [hv.name, hw.name]
  · rw [hv.unique_id, hw.unique_id]
  · rw [hv.cmd, hw.cmd]
  · rw [hv.stat, hw.stat]
  · rw [hv.schema, hw.schema]
  · rw [hv.brightness, hw.brightness]
  · rw [hv.device, hw.device]

theorem sensorConfig_unique {name : Str} {ga : Int} {v w : List (Str × JVal)} (hv : IsSensorConfig name ga v)
    (hw : IsSensorConfig name ga w) : v = w := by
  refine dict_ext v w (hv.nothing_else.trans hw.nothing_else.symm) (by rw [hv.nothing_else]; decide +kernel) ?_
  rw [hv.nothing_else]
  intro k hk
  simp only [List.map_cons, List.map_nil, List.mem_cons, List.not_mem_nil, or_false] at hk
  rcases hk with rfl | rfl | rfl | rfl
  · rw [hv.name, hw.name]
  · rw [hv.unique_id, hw.unique_id]
  · rw [hv.stat, hw.stat]
  · rw [hv.device, hw.device]

theorem daemonConfig_unique {v w : List (Str × JVal)} (hv : IsDaemonConfig v) (hw : IsDaemonConfig w) : v = w := by
  refine dict_ext v w (hv.nothing_else.trans hw.nothing_else.symm) (by rw [hv.nothing_else]; decide +kernel) ?_
  rw [hv.nothing_else]
  intro k hk
  simp only [List.map_cons, List.map_nil, List.mem_cons, List.not_mem_nil, or_false] at hk
  rcases hk with rfl | rfl | rfl | rfl | rfl
  · rw [hv.base, hw.base]
  · rw [hv.name, hw.name]
  · rw [hv.unique_id, hw.unique_id]
  · rw [hv.stat, hw.stat]
  · rw [hv.device, hw.device]

theorem configures_iff (labels : List (Int × Str)) : ∀ (gas : List Int) (_ : ∀ ga ∈ gas, ga ∈ groupAddresses)
    (o : List MqttEff), Configures labels gas o ↔ o = gas.flatMap (configsOf labels) := by
  intro gas
  induction gas with
  | nil =>
    intro _ o
    constructor
    · intro h; cases h; rfl
    · rintro rfl; exact .nil
  | cons ga gas ih =>
    intro hg o
    obtain ⟨v, h1, h2⟩ := lightConfig_ok (lightName labels ga) ga (hg ga (by simp))
    obtain ⟨w, h3, h4⟩ := sensorConfig_ok (lightName labels ga) ga (hg ga (by simp))
    have ih := ih fun ga h => hg ga (List.mem_cons_of_mem _ h)
    rw [List.flatMap_cons, configsOf, h1, h3]
    constructor
    · intro h
      cases h with
      | cons _ _ v' w' o hv hw h =>
        rw [lightConfig_unique hv h2, sensorConfig_unique hw h4, (ih o).1 h]
        rfl
    · rintro rfl
      exact .cons ga gas v w _ h2 h4 ((ih _).2 rfl)

theorem announces_iff (labels : List (Int × Str)) (o : List MqttEff) : Announces labels o ↔
    o = .subscribe (groupAddresses.map fun ga => ((topicText .lightSet ga).toList, 2)) ::
      metaMessage :: groupAddresses.flatMap (configsOf labels) := by
  obtain ⟨v, h1, h2, -⟩ := C66_daemon labels
  rw [h1]
  constructor
  · intro h
    cases h with
    | all v' o hv h => rw [daemonConfig_unique hv h2, (configures_iff labels _ (fun _ h => h) o).1 h]
  · rintro rfl
    exact .all v _ h2 ((configures_iff labels _ (fun _ h => h) _).2 rfl)

/-! ## Steps -/

/-- One step, with what comes of it. -/
def daemonDo (u : UniTable) (loads : Bytes → Option JVal) (now : Nat → PyDateTime) :
    DaemonStep → Proc (Conn Client) (Eff MqttEff) Unit
  | .made, c => onState Client.connectionMade c
  | .lost, c => onState Client.connectionLost c
  | .receive d, c => Client.dataReceived (Mqtt.cbusHook now) d c
  | .tick, c => onState (Proc.andThen (Client.clockDatetime now none) fun _ => pure ()) c
  | .broker labels, c => onState (Mqtt.onConnect labels) c
  | .message topic payload, c => onState (Mqtt.onMessage u loads topic payload) c
where
  /-- The connection's buffer stays as it is. -/
  onState (m : Proc Client (Eff MqttEff) Unit) (c : Conn Client) : Conn Client × List (Eff MqttEff) × Py Unit :=
    ({ c with st := (m c.st).1 }, (m c.st).2.1, (m c.st).2.2)

/-- Step after step. An exception does not stop the event loop. -/
def daemonRun (u : UniTable) (loads : Bytes → Option JVal) (now : Nat → PyDateTime) :
    List DaemonStep → Conn Client → Conn Client × List (List (Eff MqttEff) × Py Unit)
  | [], c => (c, [])
  | x :: xs, c =>
    let r := daemonDo u loads now x c
    let r' := daemonRun u loads now xs r.1
    (r'.1, (r.2.1, r.2.2) :: r'.2)

/-- The daemon in a given state. -/
def daemonAt (s : Client) (d : DaemonState) : Conn Client :=
  ⟨d.buffer, { s with connected := d.connected, mqttApi := d.broker, future := d.future,
                      nextConf := d.count.codes % 20, clockReads := d.count.reads }⟩

/-- The timesync setting is that of `s`; the rest is in `d`. -/
theorem does_total (u : UniTable) (loads : Bytes → Option JVal) (now : Nat → PyDateTime) (hnow : ∀ n, DateTimeOk (now n))
    (s : Client) (x : DaemonStep) (d : DaemonState) (hx : ∀ b, x = .receive b → d.connected = true) :
    ∃ o d' r, Does u (fun b v => loads b = some v) now s.timesync x d o d' r ∧
      daemonDo u loads now x (daemonAt s d) = (daemonAt s d', o, r) := by
  have hk : ∀ k, k % 20 < 20 := fun k => Nat.mod_lt _ (by decide)
  have hmod : ∀ k j, (k % 20 + j) % 20 = (k + j) % 20 := fun k j => by omega
  cases x with
  | made =>
    refine ⟨_, _, _, .made d, ?_⟩
    obtain ⟨c1, c2, c3, h1, h2⟩ := C46_connect (π := MqttEff) (daemonAt s d).st (hk _)
    have h3 : cycleFrom (d.count.codes % 20) 3 =
        [codeAt d.count.codes, codeAt (d.count.codes + 1), codeAt (d.count.codes + 2)] := by
      have key : ∀ k : Fin 20, cycleFrom k.1 3 = [codeAt k.1, codeAt (k.1 + 1), codeAt (k.1 + 2)] := by decide +kernel
      have := key ⟨d.count.codes % 20, hk _⟩
      rw [this]
      simp only [codeAt, Nat.mod_mod, hmod]
    have h4 : (daemonAt s d).st.nextConf = d.count.codes % 20 := rfl
    rw [h4, h3] at h1
    simp only [List.cons.injEq, and_true] at h1
    obtain ⟨rfl, rfl, rfl⟩ := h1
    simp only [daemonDo, daemonDo.onState, h2, h4, hmod]
    rfl
  | lost =>
    have e : daemonDo u loads now .lost (daemonAt s d) =
        ({ daemonAt s d with st := (Client.connectionLost (π := MqttEff) (daemonAt s d).st).1 },
          (Client.connectionLost (daemonAt s d).st).2.1, (Client.connectionLost (π := MqttEff) (daemonAt s d).st).2.2) := rfl
    have hf : (daemonAt s d).st.future = d.future := rfl
    cases h : d.future with
    | absent =>
      refine ⟨_, _, _, .lostUnseen d h, ?_⟩
      rw [e]; unfold Client.connectionLost; rw [hf, h]; simp [daemonAt, h]
    | pending =>
      refine ⟨_, _, _, .lost d h, ?_⟩
      rw [e]; unfold Client.connectionLost; rw [hf, h]; simp [daemonAt]
    | done =>
      refine ⟨_, _, _, .lostAgain d h, ?_⟩
      rw [e]; unfold Client.connectionLost; rw [hf, h]; simp [daemonAt, h]
  | receive b =>
    have hc := hx b rfl
    have hfol := follows_daemon now hnow (daemonAt s d).st (by exact hc)
    obtain ⟨o, b', k', r, h1, h2⟩ := converses_feed hfol [b] d.buffer d.count
    refine ⟨o, _, r, .receive d b b' o k' r h1, ?_⟩
    have e1 : clientAt (daemonAt s d).st d.count = (daemonAt s d).st := by simp [clientAt, daemonAt]
    rw [e1] at h2
    have e2 : feed maxBufferSize (Client.handle (Mqtt.cbusHook now)) [b] ⟨d.buffer, (daemonAt s d).st⟩ =
        Client.dataReceived (Mqtt.cbusHook now) b (daemonAt s d) := by
      show feed _ _ [b] (daemonAt s d) = _
      simp only [feed, Client.dataReceived, Proc.andThen]
      generalize CBus.dataReceived maxBufferSize (Client.handle (Mqtt.cbusHook now)) b (daemonAt s d) = z
      obtain ⟨z1, z2, z3⟩ := z
      cases z3 with
      | ok _ => simp only [List.append_nil]
      | error _ => rfl
    rw [e2] at h2
    simp only [daemonDo, h2]
    rfl
  | tick =>
    cases hc : d.connected with
    | true =>
      obtain ⟨line, h1, h2⟩ := clock_answer (π := MqttEff) now hnow (daemonAt s d).st hc d.count
      refine ⟨_, _, _, .tick d line hc h1, ?_⟩
      have e1 : clientAt (daemonAt s d).st d.count = (daemonAt s d).st := by simp [clientAt, daemonAt]
      rw [e1] at h2
      simp only [daemonDo, daemonDo.onState, Proc.andThen, h2]
      rfl
    | false =>
      refine ⟨_, _, _, .tickDown d hc, ?_⟩
      have h := (clock_run (π := MqttEff) (now d.count.reads) (hnow _)
        { (daemonAt s d).st with clockReads := d.count.reads + 1 }).2 hc
      have h' : Client.clockDatetime (π := MqttEff) now none (daemonAt s d).st =
          ({ (daemonAt s d).st with clockReads := d.count.reads + 1 }, [], .error .ioError) := h
      simp only [daemonDo, daemonDo.onState, Proc.andThen, h']
      rfl
  | broker labels =>
    refine ⟨_, _, _, .broker d labels _ ((announces_iff labels _).2 rfl), ?_⟩
    simp only [daemonDo, daemonDo.onState, C66_connect]
    rfl
  | message topic payload =>
    have same : ∀ r, Mqtt.onMessage u loads topic payload (daemonAt s d).st = ((daemonAt s d).st, [], r) →
        daemonDo u loads now (.message topic payload) (daemonAt s d) = (daemonAt s d, [], r) := by
      intro r h
      simp only [daemonDo, daemonDo.onState, h]
    by_cases ht : ∃ ga, ForLight u topic ga
    · obtain ⟨ga, ht⟩ := ht
      have ht' := (C104_topic u topic ga).2 ht
      cases hv : loads payload with
      | none =>
        refine ⟨_, _, _, .unreadable d topic payload (by intro v h; rw [hv] at h; cases h), same _ ?_⟩
        exact C60_ignored u loads topic payload _ (.inr hv)
      | some v =>
        rcases means_or_error u v with ⟨m, hm⟩ | ⟨e, he⟩
        · cases hc : d.connected with
          | false =>
            exact ⟨_, _, _, .down d topic payload ga v m ht hv hm hc,
              same _ (C60_disconnected u loads topic ga ht' payload v hv m hm _ hc)⟩
          | true =>
            by_cases hb : 0 ≤ m.brightness ∨ m.on = false
            · obtain ⟨c, h1, h2⟩ := C60_acts_partial u loads topic ga ht' payload v hv m hm hb (daemonAt s d).st ⟨hc, hk _⟩
              have h3 : cycleFrom (d.count.codes % 20) 1 = [codeAt d.count.codes] := by
                have key : ∀ k : Fin 20, cycleFrom k.1 1 = [codeAt k.1] := by decide +kernel
                have := key ⟨d.count.codes % 20, hk _⟩
                rw [this]
                simp only [codeAt, Nat.mod_mod]
              have h4 : (daemonAt s d).st.nextConf = d.count.codes % 20 := rfl
              rw [h4, h3] at h1
              simp only [List.cons.injEq, and_true] at h1
              subst h1
              refine ⟨_, _, _, .message d topic payload ga v m _ _ _ ht hv hm hc hb
                ((setBytes_iff m ga someTime PyDate.weekday _).2 rfl) ((spelled_iff true _ _).2 rfl)
                ((answers_iff m ga hb _).2 rfl), ?_⟩
              simp only [daemonDo, daemonDo.onState, h2, h4, hmod]
              rfl
            · simp only [not_or, Int.not_le, Bool.not_eq_false] at hb
              refine ⟨_, _, _, .negative d topic payload ga v m ht hv hm hc hb.1 hb.2, same _ ?_⟩
              have := C61_negative u loads topic ga ht' payload v hv m hm hb.1 hb.2 (daemonAt s d).st
              have hc' : (daemonAt s d).st.connected = true := hc
              rwa [hc', if_pos rfl] at this
        · exact ⟨_, _, _, .meaningless d topic payload ga v e ht hv he,
            same _ (C60_raises u loads topic ga ht' payload v hv e he _)⟩
    · refine ⟨_, _, _, .elsewhere d topic payload (fun ga h => ht ⟨ga, h⟩), same _ ?_⟩
      exact C60_ignored u loads topic payload _ (.inl fun ga h => ht ⟨ga, (C104_topic u topic ga).1 h⟩)

theorem errors_unique {u : UniTable} {v : JVal} {e e' : PyErr} (h : MessageError u v e) (h' : MessageError u v e') :
    e = e' := by
  have h1 := readPayload_error u h
  rw [readPayload_error u h'] at h1
  cases h1
  rfl

theorem does_unique {u : UniTable} {loads : Bytes → Option JVal} {now : Nat → PyDateTime} (hnow : ∀ n, DateTimeOk (now n))
    {ts : Int} {x : DaemonStep} {d d1 d2 : DaemonState} {o1 o2 : List (Eff MqttEff)} {r1 r2 : Py Unit}
    (h1 : Does u (fun b v => loads b = some v) now ts x d o1 d1 r1)
    (h2 : Does u (fun b v => loads b = some v) now ts x d o2 d2 r2) : o1 = o2 ∧ d1 = d2 ∧ r1 = r2 := by
  cases h1 with
  | made => cases h2; exact ⟨rfl, rfl, rfl⟩
  | lost _ h => cases h2 <;> simp_all
  | lostAgain _ h => cases h2 <;> simp_all
  | lostUnseen _ h => cases h2 <;> simp_all
  | receive _ b b' o k r h =>
    cases h2 with
    | receive _ _ b'' o' k' r' h' =>
      obtain ⟨rfl, rfl, rfl, rfl⟩ := converses_unique hnow h h'
      exact ⟨rfl, rfl, rfl⟩
  | tick _ line hc hl =>
    cases h2 with
    | tick _ line' hc' hl' => rw [clockLine_unique (hnow _) hl hl']; exact ⟨rfl, rfl, rfl⟩
    | tickDown _ hc' => rw [hc] at hc'; cases hc'
  | tickDown _ hc =>
    cases h2 with
    | tick _ line' hc' hl' => rw [hc] at hc'; cases hc'
    | tickDown _ hc' => exact ⟨rfl, rfl, rfl⟩
  | broker _ labels o h =>
    cases h2 with
    | broker _ _ o' h' => rw [(announces_iff labels _).1 h, (announces_iff labels _).1 h']; exact ⟨rfl, rfl, rfl⟩
  | elsewhere _ topic payload h =>
    cases h2 with
    | elsewhere => exact ⟨rfl, rfl, rfl⟩
    | unreadable => exact ⟨rfl, rfl, rfl⟩
    | meaningless _ _ _ ga _ _ ht => exact absurd ht (h ga)
    | down _ _ _ ga _ _ ht => exact absurd ht (h ga)
    | negative _ _ _ ga _ _ ht => exact absurd ht (h ga)
    | message _ _ _ ga _ _ _ _ _ ht => exact absurd ht (h ga)
  | unreadable _ topic payload h =>
    cases h2 with
    | elsewhere => exact ⟨rfl, rfl, rfl⟩
    | unreadable => exact ⟨rfl, rfl, rfl⟩
    | meaningless _ _ _ _ v _ _ hv => exact absurd hv (h v)
    | down _ _ _ _ v _ _ hv => exact absurd hv (h v)
    | negative _ _ _ _ v _ _ hv => exact absurd hv (h v)
    | message _ _ _ _ v _ _ _ _ _ hv => exact absurd hv (h v)
  | meaningless _ topic payload ga v e ht hv he =>
    have no : ∀ v' m, loads payload = some v' → ¬ Means u v' m := by
      intro v' m hv' hm
      rw [hv] at hv'
      cases hv'
      exact (C60_every u v).2 m e hm he
    cases h2 with
    | elsewhere _ _ _ h => exact absurd ht (h ga)
    | unreadable _ _ _ h => exact absurd hv (h v)
    | meaningless _ _ _ ga' v' e' ht' hv' he' =>
      rw [hv] at hv'
      cases hv'
      rw [errors_unique he he']
      exact ⟨rfl, rfl, rfl⟩
    | down _ _ _ _ v' m _ hv' hm => exact absurd hm (no v' m hv')
    | negative _ _ _ _ v' m _ hv' hm => exact absurd hm (no v' m hv')
    | message _ _ _ _ v' m _ _ _ _ hv' hm => exact absurd hm (no v' m hv')
  | down _ topic payload ga v m ht hv hm hc =>
    cases h2 with
    | elsewhere _ _ _ h => exact absurd ht (h ga)
    | unreadable _ _ _ h => exact absurd hv (h v)
    | meaningless _ _ _ ga' v' e' ht' hv' he' =>
      rw [hv] at hv'
      cases hv'
      exact absurd he' ((C60_every u v).2 m e' hm)
    | down => exact ⟨rfl, rfl, rfl⟩
    | negative _ _ _ _ v' m _ _ _ hc' => rw [hc] at hc'; cases hc'
    | message _ _ _ _ v' m _ _ _ _ _ _ hc' => rw [hc] at hc'; cases hc'
  | negative _ topic payload ga v m ht hv hm hc hb ho =>
    cases h2 with
    | elsewhere _ _ _ h => exact absurd ht (h ga)
    | unreadable _ _ _ h => exact absurd hv (h v)
    | meaningless _ _ _ ga' v' e' ht' hv' he' =>
      rw [hv] at hv'
      cases hv'
      exact absurd he' ((C60_every u v).2 m e' hm)
    | down _ _ _ _ _ _ _ _ _ hc' => rw [hc] at hc'; cases hc'
    | negative => exact ⟨rfl, rfl, rfl⟩
    | message _ _ _ _ v' m' _ _ _ _ hv' hm' _ hb' =>
      rw [hv] at hv'
      cases hv'
      obtain ⟨e1, -, e2, -⟩ := means_unique hm hm'
      rw [← e1, ho] at hb'
      have := e2.1 hb
      rcases hb' with h | h
      · omega
      · cases h
  | message _ topic payload ga v m body digits o ht hv hm hc hb h hs ho =>
    cases h2 with
    | elsewhere _ _ _ h => exact absurd ht (h ga)
    | unreadable _ _ _ h => exact absurd hv (h v)
    | meaningless _ _ _ ga' v' e' ht' hv' he' =>
      rw [hv] at hv'
      cases hv'
      exact absurd he' ((C60_every u v).2 m e' hm)
    | down _ _ _ _ _ _ _ _ _ hc' => rw [hc] at hc'; cases hc'
    | negative _ _ _ _ v' m' _ hv' hm' _ hb' ho' =>
      rw [hv] at hv'
      cases hv'
      obtain ⟨e1, -, e2, -⟩ := means_unique hm hm'
      rw [e1, ho'] at hb
      have := e2.2 hb'
      rcases hb with h | h
      · omega
      · cases h
    | message _ _ _ ga' v' m' body' digits' o' ht' hv' hm' hc' hb' h' hs' ho' =>
      rw [hv] at hv'
      cases hv'
      have eg := forLight_unique ht ht'
      subst eg
      obtain ⟨e1, e2, -, e3⟩ := means_unique hm hm'
      have ec : m.call ga = m'.call ga := by unfold SetMessage.call; rw [e1, e2, e3]
      have em : m.messages ga = m'.messages ga := by unfold SetMessage.messages; rw [e1, e2, e3]
      rw [(setBytes_iff m ga someTime PyDate.weekday _).1 h] at hs
      rw [(setBytes_iff m' ga someTime PyDate.weekday _).1 h', ← ec] at hs'
      rw [(spelled_iff true _ _).1 hs, (spelled_iff true _ _).1 hs', (answers_iff m ga hb _).1 ho,
        (answers_iff m' ga hb' _).1 ho', em]
      exact ⟨rfl, rfl, rfl⟩

/-! ## Histories -/

theorem does_connected {u : UniTable} {read : Bytes → JVal → Prop} {now : Nat → PyDateTime}
    {ts : Int} {x : DaemonStep} {xs : List DaemonStep} {d d1 : DaemonState} {o1 : List (Eff MqttEff)} {r1 : Py Unit}
    (h1 : Does u read now ts x d o1 d1 r1) (h : OnlyConnected d.connected (x :: xs)) : OnlyConnected d1.connected xs := by
  generalize hc : d.connected = c at h
  cases h with
  | made _ _ h => cases h1; exact h
  | lost _ _ h => cases h1 <;> exact h
  | receive b _ h => cases h1; simp only [hc]; exact h
  | tick _ _ h => cases h1 <;> (simp only [hc]; exact h)
  | broker _ labels _ h => cases h1; simp only [hc]; exact h
  | message _ topic payload _ h => cases h1 <;> (simp only [hc]; exact h)

theorem lives_run (u : UniTable) (loads : Bytes → Option JVal) (now : Nat → PyDateTime) (hnow : ∀ n, DateTimeOk (now n))
    (s : Client) : ∀ (xs : List DaemonStep) (d : DaemonState), OnlyConnected d.connected xs →
    ∃ os d', Lives u (fun b v => loads b = some v) now s.timesync xs d os d' ∧
      daemonRun u loads now xs (daemonAt s d) = (daemonAt s d', os) := by
  intro xs
  induction xs with
  | nil => intro d _; exact ⟨_, _, .nil d, rfl⟩
  | cons x xs ih =>
    intro d hc
    obtain ⟨o, d1, r, h1, h2⟩ := does_total u loads now hnow s x d (by
      rintro b rfl
      generalize hd : d.connected = c at hc
      cases hc
      rfl)
    obtain ⟨os, d2, h3, h4⟩ := ih d1 (does_connected h1 hc)
    refine ⟨_, _, .cons x xs d d1 d2 o r os h1 h3, ?_⟩
    simp only [daemonRun, h2, h4]

theorem lives_unique {u : UniTable} {loads : Bytes → Option JVal} {now : Nat → PyDateTime} (hnow : ∀ n, DateTimeOk (now n))
    {ts : Int} {xs : List DaemonStep} {d d1 d2 : DaemonState} {o1 o2 : List (List (Eff MqttEff) × Py Unit)}
    (h1 : Lives u (fun b v => loads b = some v) now ts xs d o1 d1)
    (h2 : Lives u (fun b v => loads b = some v) now ts xs d o2 d2) : o1 = o2 ∧ d1 = d2 := by
  induction h1 generalizing o2 d2 with
  | nil => cases h2; exact ⟨rfl, rfl⟩
  | cons x xs d d1 d2 o r os h _ ih =>
    cases h2 with
    | cons _ _ _ d1' d2' o' r' os' h' hr' =>
      obtain ⟨rfl, rfl, rfl⟩ := does_unique hnow h h'
      obtain ⟨rfl, rfl⟩ := ih hr'
      exact ⟨rfl, rfl⟩

/-- What there is to know about a daemon that was given its settings. -/
def stateOf (c : Conn Client) : DaemonState :=
  ⟨c.st.connected, c.st.mqttApi, c.st.future, c.buf, ⟨c.st.nextConf, c.st.clockReads⟩⟩

/-- C104: whatever happens, in whatever order, the daemon does in every step what is
written down and nothing else. -/
theorem C104_daemon (u : UniTable) (loads : Bytes → Option JVal) (now : Nat → PyDateTime) (hnow : ∀ n, DateTimeOk (now n))
    (c : Conn Client) (hk : c.st.nextConf < 20) (xs : List DaemonStep) (hx : OnlyConnected c.st.connected xs)
    (c' : Conn Client) (os : List (List (Eff MqttEff) × Py Unit)) :
    daemonRun u loads now xs c = (c', os) ↔
      ∃ d, Lives u (fun b v => loads b = some v) now c.st.timesync xs (stateOf c) os d ∧
        c' = ⟨d.buffer, { c.st with connected := d.connected, mqttApi := d.broker, future := d.future,
                                    nextConf := d.count.codes % 20, clockReads := d.count.reads }⟩ := by
  have e : daemonAt c.st (stateOf c) = c := by
    unfold daemonAt stateOf
    simp only [Nat.mod_eq_of_lt hk]
  obtain ⟨os', d', h1, h2⟩ := lives_run u loads now hnow c.st xs (stateOf c) hx
  rw [e] at h2
  rw [h2]
  constructor
  · intro h
    cases h
    exact ⟨d', h1, rfl⟩
  · rintro ⟨d, h3, h4⟩
    obtain ⟨rfl, rfl⟩ := lives_unique hnow h1 h3
    rw [h4]
    rfl

/-- C104 with `json.loads` itself: payloads are read as C104_payload says. -/
theorem C104_bytes (u : UniTable) (env : CBus.Json.JEnv) (now : Nat → PyDateTime) (hnow : ∀ n, DateTimeOk (now n))
    (c : Conn Client) (hk : c.st.nextConf < 20) (xs : List DaemonStep) (hx : OnlyConnected c.st.connected xs)
    (c' : Conn Client) (os : List (List (Eff MqttEff) × Py Unit)) :
    daemonRun u (CBus.Json.loads env) now xs c = (c', os) ↔
      ∃ d, Lives u (Payload env) now c.st.timesync xs (stateOf c) os d ∧
        c' = ⟨d.buffer, { c.st with connected := d.connected, mqttApi := d.broker, future := d.future,
                                    nextConf := d.count.codes % 20, clockReads := d.count.reads }⟩ := by
  have e : (fun b v => CBus.Json.loads env b = some v) = Payload env := by
    funext b v
    exact propext (C104_payload env b v)
  rw [← e]
  exact C104_daemon u (CBus.Json.loads env) now hnow c hk xs hx c' os

/-- The histories of C43 and C90 are these, without the exceptions. -/
theorem C104_histories (u : UniTable) (loads : Bytes → Option JVal) (now : Nat → PyDateTime) (xs : List DaemonStep)
    (c : Conn Client) : daemonSteps u loads now xs c =
      ((daemonRun u loads now xs c).1, (daemonRun u loads now xs c).2.flatMap (·.1)) := by
  induction xs generalizing c with
  | nil => rfl
  | cons x xs ih =>
    have h : daemonStep u loads now x c = ((daemonDo u loads now x c).1, (daemonDo u loads now x c).2.1) := by
      cases x with
      | tick =>
        simp only [daemonStep, daemonDo, daemonDo.onState, onConn, Proc.andThen]
        generalize Client.clockDatetime (π := MqttEff) now none c.st = z
        obtain ⟨z1, z2, z3⟩ := z
        cases z3 <;> simp [pure]
      | _ => simp only [daemonStep, daemonDo, daemonDo.onState, onConn]
    simp only [daemonSteps, daemonRun, h, ih, List.flatMap_cons]

/-- A day of a daemon: it connects to the PCI, the network switches a light before the
broker is there, a message comes, the connection is lost, another message comes. -/
example : (daemonRun .ascii (CBus.Json.loads exampleEnv) (fun _ => someTime)
      [.made, .receive (ascii "05053800790144\r\n"),
       .message "homeassistant/light/cbus_7/set".toList (Json.utf8 "{\"state\": \"off\"}".toList), .lost,
       .message "homeassistant/light/cbus_7/set".toList (Json.utf8 "{\"state\": \"off\"}".toList),
       .message "homeassistant/light/cbus_7/set".toList (Json.utf8 "[]".toList),
       .message "homeassistant/light/cbus_7/set".toList (Json.utf8 "[".toList)]
      ⟨[], { timesync := 0, future := .pending }⟩).2 =
    [([.write (ascii "~\r"), .write (ascii "~\r"), .write (ascii "~\r"), .write (ascii "A3210038h\r"),
        .write (ascii "A342000Ei\r"), .write (ascii "A3300059j\r")], .ok ()),
     ([.event (.lightingOn (some 5) 1)], .ok ()),
     ([.write (ascii "\\0538000107BBk\r"), .ext (stateMessage 7 false (.int 0) 0 none), .ext (sensorMessage 7 false)], .ok ()),
     ([], .ok ()), ([], .error .ioError), ([], .error .typeError), ([], .ok ())] := by
  decide +kernel

example : OnlyConnected false [.made, .receive (ascii "05053800790144\r\n"), .lost, .message [] [], .made, .tick] :=
  .made _ _ (.receive _ _ (.lost _ _ (.message _ _ _ _ (.made _ _ (.tick _ _ (.nil _))))))

end CBus.Props
