import Verif.Lemmas.JsonDump
import Verif.Props.Discovery

/-! # C100: what the daemon reads from the broker and what it publishes -/

namespace CBus.Props
open CBus CBus.Spec CBus.Json CBus.Spec.Json

/-- C100: `json.loads` returns a value exactly for the texts of the grammar, and then
the value that the text stands for. Anything else raises. -/
theorem C100_loads (env : JEnv) (s : Str) (v : JVal) : loadsText env s = some v ↔ JsonText env s v :=
  loadsText_iff env s v

/-- C100: so a text stands for at most one value. -/
theorem C100_one_value (env : JEnv) (s : Str) (v w : JVal) (hv : JsonText env s v) (hw : JsonText env s w) : v = w := by
  have h1 := (C100_loads env s v).2 hv
  rw [(C100_loads env s w).2 hw] at h1
  cases h1
  rfl

/-- C100: a JSON text in UTF-8 is read as the value that it stands for. -/
theorem C100_bytes (env : JEnv) (s : Str) (v : JVal) (h : JsonText env s v) : loads env (utf8 s) = some v := by
  obtain ⟨h1, h2⟩ := jsonText_plain h
  rw [loads_utf8 env h1 h2]
  exact (C100_loads env s v).2 h

/-- C100: another text in UTF-8 raises, unless it begins with a byte order mark or
contains a zero character and so may pass for another encoding. -/
theorem C100_not_json (env : JEnv) (s : Str) (h : ∀ v, ¬ JsonText env s v) (hz : ∀ c ∈ s, c ≠ Char.ofNat 0)
    (hb : s.head? ≠ some (Char.ofNat 0xfeff)) : loads env (utf8 s) = none := by
  rw [loads_utf8 env (fun c hc e => hz c hc (by rw [← e, Char.ofNat_toNat])) hb]
  cases hl : loadsText env s with
  | none => rfl
  | some v => exact absurd ((C100_loads env s v).1 hl) (h v)

/-- C100: of several members with the same name the last one counts. -/
theorem C100_duplicates (l : List (Str × JVal)) (k : Str) :
    dictGet (dictOf l) k = (l.reverse.find? (fun m => m.1 = k)).map (·.2) := by
  have key : ∀ (l d : List (Str × JVal)), dictGet (l.foldl (fun d m => dictSet d m.1 m.2) d) k =
      ((l.reverse.find? (fun m => m.1 = k)).map (·.2)).or (dictGet d k) := by
    intro l
    induction l with
    | nil => intro d; simp
    | cons m l ih =>
      intro d
      rw [List.foldl_cons, ih, List.reverse_cons, List.find?_append, dictGet_dictSet]
      cases hf : l.reverse.find? (fun m => m.1 = k) with
      | some x => simp
      | none => by_cases hm : m.1 = k <;> simp [hm]
  have := key l []
  rw [dictOf, this]
  cases List.find? (fun m => decide (m.1 = k)) l.reverse <;> simp [dictGet]

/-- C100: what `json.dumps` writes is a JSON text of the value, and consists of
printable characters of ASCII only. -/
theorem C100_dumps (env : JEnv) (v : JVal) (h : Exact env v) :
    JsonText env (dumps env v) v ∧ ∀ c ∈ dumps env v, ' '.toNat ≤ c.toNat ∧ c.toNat ≤ '~'.toNat :=
  ⟨⟨[], _, [], by simp, blank_nil, blank_nil, dumps_part env h⟩, dumps_printable env h⟩

/-- C100: so it is read back as the value. -/
theorem C100_round_trip (env : JEnv) (v : JVal) (h : Exact env v) : loads env (utf8 (dumps env v)) = some v :=
  C100_bytes env _ v (C100_dumps env v h).1

/-! ## What the daemon publishes -/

/-- Every JSON message among these can be written down and read back. -/
def AllExact (env : JEnv) (o : List (Eff MqttEff)) : Prop :=
  ∀ topic v q r, Eff.ext (.publish topic (.json v) q r) ∈ o → Exact env v

theorem stateMessage_exact {env : JEnv} {ga : Int} {on : Bool} {level : PyNum} {d : Int} {src : Option Int}
    (hl : Exact env (.num level)) {topic : Str} {v : JVal} {q : Nat} {r : Bool}
    (h : stateMessage ga on level d src = .publish topic (.json v) q r) : Exact env v := by
  unfold stateMessage at h
  simp only [MqttEff.publish.injEq, MqttPayload.json.injEq] at h
  obtain ⟨-, rfl, -⟩ := h
  refine .obj _ (by simp) ?_
  intro m hm
  simp only [List.mem_cons, List.not_mem_nil, or_false] at hm
  rcases hm with rfl | rfl | rfl | rfl
  · exact .str _
  · exact hl
  · exact .int _
  · cases src
    · exact .null
    · exact .int _

/-- The level that an event carries, if it carries one, can be written down. -/
def LevelExact (env : JEnv) : Event → Prop
  | .lightingRamp _ _ _ l => Exact env (.num l)
  | _ => True

theorem eventMessages_exact {env : JEnv} {e : Event} (he : LevelExact env e) : AllExact env ((eventMessages e).map .ext) := by
  intro topic v q r h
  obtain ⟨m, hm, e'⟩ := List.mem_map.1 h
  simp only [Eff.ext.injEq] at e'
  unfold eventMessages at hm
  split at hm
  all_goals simp only [List.mem_cons, List.not_mem_nil, or_false] at hm
  · rcases hm with rfl | rfl
    · exact stateMessage_exact (.int _) e'
    · simp [sensorMessage] at e'
  · rcases hm with rfl | rfl
    · exact stateMessage_exact (.int _) e'
    · simp [sensorMessage] at e'
  · rcases hm with rfl | rfl
    · exact stateMessage_exact he e'
    · simp [sensorMessage] at e'

theorem messages_exact (env : JEnv) (m : SetMessage) (ga : Int) : AllExact env ((m.messages ga).map .ext) := by
  unfold SetMessage.messages
  split
  · split
    · exact eventMessages_exact trivial
    · exact eventMessages_exact (.int _)
  · exact eventMessages_exact trivial

theorem deviceConfig_exact (env : JEnv) (kind : Str) (ga : Int) : Exact env (Mqtt.deviceConfig kind ga) := by
  refine .obj _ (by simp) ?_
  intro m hm
  simp only [List.mem_cons, List.not_mem_nil, or_false] at hm
  rcases hm with rfl | rfl | rfl | rfl | rfl | rfl | rfl
  · refine .arr _ fun x hx => ?_
    rw [List.mem_singleton.1 hx]
    exact .str _
  · refine .arr _ fun x hx => ?_
    rw [List.mem_singleton.1 hx]
    refine .arr _ fun y hy => ?_
    simp only [List.mem_cons, List.not_mem_nil, or_false] at hy
    rcases hy with rfl | rfl <;> exact .str _
  all_goals exact .str _

theorem lightConfig_exact (env : JEnv) (name : Str) (ga : Int) : Exact env (Mqtt.lightConfig name ga) := by
  refine .obj _ (by simp) ?_
  intro m hm
  simp only [List.mem_cons, List.not_mem_nil, or_false] at hm
  rcases hm with rfl | rfl | rfl | rfl | rfl | rfl | rfl
  · exact .str _
  · exact .str _
  · exact .str _
  · exact .str _
  · exact .str _
  · exact .bool _
  · exact deviceConfig_exact env _ _

theorem sensorConfig_exact (env : JEnv) (name : Str) (ga : Int) : Exact env (Mqtt.binSensorConfig name ga) := by
  refine .obj _ (by simp) ?_
  intro m hm
  simp only [List.mem_cons, List.not_mem_nil, or_false] at hm
  rcases hm with rfl | rfl | rfl | rfl
  · exact .str _
  · exact .str _
  · exact .str _
  · exact deviceConfig_exact env _ _

theorem metaConfig_exact (env : JEnv) : Exact env Mqtt.metaConfig := by
  refine .obj _ (by decide) ?_
  intro m hm
  simp only [List.mem_cons, List.not_mem_nil, or_false] at hm
  rcases hm with rfl | rfl | rfl | rfl | rfl
  · exact .str _
  · exact .str _
  · exact .str _
  · exact .str _
  · refine .obj _ (by decide) ?_
    intro m hm
    simp only [List.mem_cons, List.not_mem_nil, or_false] at hm
    rcases hm with rfl | rfl | rfl | rfl | rfl
    · refine .arr _ fun x hx => ?_
      rw [List.mem_singleton.1 hx]
      exact .str _
    all_goals exact .str _

/-- C100: everything that the daemon publishes as JSON when it connects to the broker,
when a message arrives and when something happens on the network is read back, by
whoever receives its text, as what was meant. The names of lights may be any texts. -/
theorem C100_published (env : JEnv) (u : UniTable) (now : Nat → PyDateTime) (labels : List (Int × Str)) (topic : Str)
    (payload : Bytes) (ev : Event) (hev : LevelExact env ev) (hc : ∀ src, ev ≠ .clockRequest src) (s : Client) (hu : Up s)
    (o : List (Eff MqttEff))
    (ho : o = (Mqtt.onConnect labels s).2.1 ∨ o = (Mqtt.onMessage u (loads env) topic payload s).2.1 ∨
      o = (Mqtt.cbusHook now ev s).2.1) (t : Str) (v : JVal) (q : Nat) (r : Bool)
    (h : Eff.ext (.publish t (.json v) q r) ∈ o) :
    loads env (utf8 (dumps env v)) = some v := by
  refine C100_round_trip env v ?_
  rcases ho with ho | ho | ho
  · rw [ho, C66_connect] at h
    clear ho
    rcases List.mem_cons.1 h with h | h
    · cases h
    obtain ⟨m, hm, e⟩ := List.mem_map.1 h
    cases e
    rcases List.mem_cons.1 hm with h | hm
    · simp only [metaMessage, MqttEff.publish.injEq, MqttPayload.json.injEq] at h
      rw [h.2.1]
      exact metaConfig_exact env
    · obtain ⟨ga, -, hm⟩ := List.mem_flatMap.1 hm
      simp only [configsOf, List.mem_cons, List.not_mem_nil, or_false, MqttEff.publish.injEq, MqttPayload.json.injEq] at hm
      rcases hm with ⟨-, rfl, -⟩ | ⟨-, rfl, -⟩
      · exact lightConfig_exact env _ _
      · exact sensorConfig_exact env _ _
  · rcases C60_nothing_else u (loads env) topic payload s hu with ⟨r, hr⟩ | ⟨ga, c, v', m, -, -, -, -, hr⟩
    · rw [ho, hr] at h
      cases h
    · rw [ho, hr] at h
      rcases List.mem_cons.1 h with h | h
      · cases h
      · exact messages_exact env m ga _ _ _ _ h
  · rw [ho, C62_event now ev hc s] at h
    split at h
    · exact eventMessages_exact hev _ _ _ _ h
    · cases h

/-! ## Examples -/

/-- A Python in which floats are read and written as if they were zero, for the
examples. -/
def exampleEnv : JEnv where
  floatOf _ := .flt 0
  floatRepr _ := "0.0".toList
  lone _ := '?'
  other _ := none

/-- A text with white space, escapes and a name that occurs twice. -/
example : loadsText exampleEnv " {\"state\" : \"O\\u004e\", \"a\":[1,-20 , {}],\"state\":\"\\ud83d\\ude00\\n\"}\n".toList =
    some (.obj [("state".toList, .str (Char.ofNat 0x1f600 :: "\n".toList)),
      ("a".toList, .arr [.num (.int 1), .num (.int (-20)), .obj []])]) := by decide +kernel

/-- Texts that are not JSON. -/
example : ["", "{", "[1,]", "{\"a\":1,}", "01", "+1", "1 2", "\"a", "'a'", "tru", "{a: 1}", "\"\\x41\"", "\"\t\""].map
    (fun s => loadsText exampleEnv s.toList) = List.replicate 13 none := by decide +kernel

/-- What is published for a lamp. -/
example : dumps exampleEnv (Mqtt.stateDict "ON".toList (.int 255) 0 none) =
    "{\"state\": \"ON\", \"brightness\": 255, \"transition\": 0, \"cbus_source_addr\": null}".toList := by decide +kernel

/-- A name with a quotation mark, an accent and a character outside of the first
plane. -/
example : dumps exampleEnv (.str ['"', Char.ofNat 0xe9, Char.ofNat 0x1f600]) = "\"\\\"\\u00e9\\ud83d\\ude00\"".toList ∧
    Exact exampleEnv (.obj [("a".toList, .num (.flt 0)), ("b".toList, .arr [.null])]) := by
  refine ⟨by decide +kernel, .obj _ (by decide) ?_⟩
  intro m hm
  simp only [List.mem_cons, List.not_mem_nil, or_false] at hm
  rcases hm with rfl | rfl
  · exact .float 0 (.real [] 0 ".0".toList [] (.inl rfl) (.inr ⟨['0'], rfl, by decide, by decide⟩) (.inl rfl) (.inl (by decide)))
  · refine .arr _ fun x hx => ?_
    rw [List.mem_singleton.1 hx]
    exact .null

end CBus.Props
