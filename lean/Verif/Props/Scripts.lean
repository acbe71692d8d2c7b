import Verif.Model.Scripts
import Verif.Props.JsonText

/-! # C101: the example scripts -/

namespace CBus.Props
open CBus CBus.Spec CBus.Json CBus.Spec.Json CBus.Scripts

theorem typed_address {a : Str} (hs : '/' ∉ a) :
    ((lightTopicPrefix ++ a ++ topicSetSuffix).drop lightTopicPrefix.length).takeWhile (· ≠ '/') = a := by
  rw [List.append_assoc, List.drop_left, List.takeWhile_append_of_pos (by
    intro c hc
    simp only [ne_eq, decide_not, Bool.not_eq_true', decide_eq_false_iff_not]
    rintro rfl
    exact hs hc)]
  have : List.takeWhile (fun x => decide (x ≠ '/')) topicSetSuffix = [] := by decide
  rw [this, List.append_nil]

/-- The topic with an address that somebody typed is a topic for that group address. -/
theorem typed_topic (u : UniTable) (a : Str) (ga : Int) (ha : DecimalText u a ga) (hs : '/' ∉ a) (hg : IsByte ga) :
    IsSetTopic u (lightTopicPrefix ++ a ++ topicSetSuffix) ga := by
  refine ⟨⟨a ++ topicSetSuffix, (List.append_assoc _ _ _).symm⟩, ⟨_, rfl⟩, ?_⟩
  have h1 : Str.startsWith (lightTopicPrefix ++ a ++ topicSetSuffix) lightTopicPrefix = true :=
    List.isPrefixOf_iff_prefix.2 ⟨a ++ topicSetSuffix, (List.append_assoc _ _ _).symm⟩
  have hc : checkGa ga = .ok () := by
    unfold checkGa validateGa
    rw [if_pos]
    unfold IsByte at hg
    simp
    omega
  unfold getTopicGroupAddress
  rw [h1, typed_address hs, ((C96_decimal u a).1 ga).2 ha]
  simp only [Bool.not_true, Bool.false_eq_true, if_false, hc]

/-- And otherwise for none. -/
theorem typed_none (u : UniTable) (a : Str) (ha : ∀ ga, IsByte ga → ¬ DecimalText u a ga) (hs : '/' ∉ a) (ga : Int) :
    ¬ IsSetTopic u (lightTopicPrefix ++ a ++ topicSetSuffix) ga := by
  intro h
  have hb := address_byte h.2.2
  have h3 := h.2.2
  unfold getTopicGroupAddress at h3
  rw [typed_address hs] at h3
  split at h3
  · cases h3
  · split at h3
    · cases h3
    · rename_i ga' hi
      split at h3
      · cases h3
      · cases h3
        exact ha ga hb (((C96_decimal u a).1 ga).1 hi)

theorem letters_text (env : JEnv) (s : Str) (h : ∀ c ∈ s, 32 ≤ c.toNat ∧ c ≠ '"' ∧ c ≠ '\\') : StringText env s s := by
  induction s with
  | nil => exact .nil
  | cons c s ih =>
    have := h c List.mem_cons_self
    exact .plain c s s this.1 this.2.1 this.2.2 (ih fun d hd => h d (List.mem_cons_of_mem _ hd))

/-- The message of `cbus_on` and `cbus_off`. -/
theorem state_json (env : JEnv) (x : Str) (hx : ∀ c ∈ x, 32 ≤ c.toNat ∧ c ≠ '"' ∧ c ≠ '\\') :
    JsonText env ("{ \"state\": \"".toList ++ x ++ "\" }".toList) (.obj [("state".toList, .str x)]) := by
  have hb := blank_space
  have hn := blank_nil
  have p1 := Part.member "state".toList "state".toList [] [' '] _ [' '] _
    (letters_text env _ (by decide)) hn hb (.str x x (letters_text env _ hx)) hb
  have p := Part.obj [' '] _ _ hb p1
  refine ⟨[], _, [], ?_, hn, hn, p⟩
  simp

theorem on_json (env : JEnv) : JsonText env "{ \"state\": \"ON\" }".toList (.obj [("state".toList, .str "ON".toList)]) :=
  state_json env "ON".toList (by decide)

theorem off_json (env : JEnv) : JsonText env "{ \"state\": \"OFF\" }".toList (.obj [("state".toList, .str "OFF".toList)]) :=
  state_json env "OFF".toList (by decide)

/-- The message that `cbus_ramp` makes of two numbers. -/
theorem ramp_json (env : JEnv) (d l : Str) (x y : PyNum) (hd : NumberText env d x) (hl : NumberText env l y) :
    JsonText env ("{ \"state\": \"ON\", \"transition\": ".toList ++ d ++ ", \"brightness\": ".toList ++ l ++ " }".toList)
      (.obj [("state".toList, .str "ON".toList), ("transition".toList, .num x), ("brightness".toList, .num y)]) := by
  have hb := blank_space
  have hn := blank_nil
  have p3 := Part.member "brightness".toList "brightness".toList [] [' '] l [' '] _
    (letters_text env _ (by decide)) hn hb (.num l y hl) hb
  have p2 := Part.members "transition".toList "transition".toList [] [' '] d [] [' '] _ _ _
    (letters_text env _ (by decide)) hn hb (.num d x hd) hn hb p3
  have p1 := Part.members "state".toList "state".toList [] [' '] _ [] [' '] _ _ _
    (letters_text env _ (by decide)) hn hb (.str "ON".toList "ON".toList (letters_text env _ (by decide))) hn hb p2
  have p := Part.obj [' '] _ _ hb p1
  have e : dictOf [("state".toList, JVal.str "ON".toList), ("transition".toList, .num x), ("brightness".toList, .num y)] =
        [("state".toList, .str "ON".toList), ("transition".toList, .num x), ("brightness".toList, .num y)] :=
      dictOf_nodup _ (by simp)
  rw [e] at p
  refine ⟨[], _, [], ?_, hn, hn, p⟩
  simp

/-- What a script asks the daemon for: the only message that it publishes makes a
daemon that is connected write exactly one line, the command for exactly that group
address, and publish exactly the new state. -/
def Asks (u : UniTable) (env : JEnv) (cmds : List Cmd) (ga : Int) (m : SetMessage) : Prop :=
  ∃ topic payload, published cmds = [(topic, payload)] ∧ ∀ s, Up s → ∃ c, cycleFrom s.nextConf 1 = [c] ∧
    Mqtt.onMessage u (loads env) topic payload s =
      ({ s with nextConf := (s.nextConf + 1) % 20 }, .write (setLine m ga c) :: (m.messages ga).map .ext, .ok ())

theorem checked_run (brackets : Bool) (args usage : List Str) (rest : List Cmd) (h : ∀ a ∈ args, a ≠ []) :
    checked brackets args usage rest = rest := by
  unfold checked
  rw [if_neg]
  simp only [Bool.and_eq_true, not_and, List.any_eq_true, not_exists]
  intro _ a ha
  simpa using h a ha

theorem decimal_ne_nil {u : UniTable} {a : Str} {i : Int} (h : DecimalText u a i) : a ≠ [] := by
  rintro rfl
  obtain ⟨t, ⟨x, y, e, -⟩, ht⟩ := h
  have hd : ∀ {t : Str} {n : Nat}, Spec.Digits u.decimal 10 t n → t ≠ [] := by
    intro t n h
    cases h <;> simp
  have hn : t ≠ [] := by
    cases ht with
    | plain h => exact hd h
    | plus h => simp
    | minus h => simp
  have := List.length_pos_iff.2 hn
  have := congrArg List.length e
  simp only [List.length_append, List.length_nil] at this
  omega

/-- C101: `cbus_on` with the decimal text of a group address switches that group on, at
full level. -/
theorem C101_on (u : UniTable) (env : JEnv) (brackets : Bool) (name a : Str) (ga : Int) (ha : DecimalText u a ga)
    (hs : '/' ∉ a) (hg : IsByte ga) : Asks u env (cbusOn brackets name a) ga { on := true } := by
  unfold cbusOn
  rw [checked_run _ _ _ _ (by simpa using decimal_ne_nil ha)]
  refine ⟨_, _, rfl, fun s hu => ?_⟩
  refine C60_acts_partial u (loads env) _ ga (typed_topic u a ga ha hs hg) _ _ (C100_bytes env _ _ (on_json env)) _ ?_
    (.inl (by decide)) s hu
  refine ⟨_, _, rfl, rfl, ?_, ?_, ?_⟩
  · exact ⟨fun _ => .inl (by decide), fun _ => rfl⟩
  · rfl
  · rfl

/-- C101: `cbus_off` switches it off. -/
theorem C101_off (u : UniTable) (env : JEnv) (brackets : Bool) (name a : Str) (ga : Int) (ha : DecimalText u a ga)
    (hs : '/' ∉ a) (hg : IsByte ga) : Asks u env (cbusOff brackets name a) ga { on := false } := by
  unfold cbusOff
  rw [checked_run _ _ _ _ (by simpa using decimal_ne_nil ha)]
  refine ⟨_, _, rfl, fun s hu => ?_⟩
  refine C60_acts_partial u (loads env) _ ga (typed_topic u a ga ha hs hg) _ _ (C100_bytes env _ _ (off_json env)) _ ?_
    (.inr rfl) s hu
  refine ⟨_, _, rfl, rfl, ?_, ?_, ?_⟩
  · refine ⟨fun h => (nomatch h), fun h => ?_⟩
    rcases h with h | ⟨⟨c, hc, h⟩, -⟩
    · exact absurd h (by decide)
    · revert c; decide
  · rfl
  · rfl

theorem number_ne_nil {env : JEnv} {t : Str} {x : PyNum} (h : NumberText env t x) : t ≠ [] := by
  obtain ⟨c, r, rfl, -⟩ := number_head h
  simp

/-- C101: `cbus_ramp` with two numbers dims the group to the one over the time of the
other; a fraction is dropped, and a level above 255 is 255 (C60). -/
theorem C101_ramp (u : UniTable) (env : JEnv) (brackets : Bool) (name a d l : Str) (ga : Int) (ha : DecimalText u a ga)
    (hs : '/' ∉ a) (hg : IsByte ga) (x y : PyNum) (hd : NumberText env d x) (hl : NumberText env l y)
    (duration level : Int) (hx : IntValue u (.num x) duration) (hy : IntValue u (.num y) level) (h0 : 0 ≤ level) :
    Asks u env (cbusRamp brackets name a d l) ga { on := true, brightness := level, transition := duration } := by
  unfold cbusRamp
  rw [checked_run _ _ _ _ (by
    intro b hb
    simp only [List.mem_cons, List.not_mem_nil, or_false] at hb
    rcases hb with rfl | rfl | rfl
    · exact decimal_ne_nil ha
    · exact number_ne_nil hd
    · exact number_ne_nil hl)]
  refine ⟨_, _, rfl, fun s hu => ?_⟩
  refine C60_acts_partial u (loads env) _ ga (typed_topic u a ga ha hs hg) _ _
    (C100_bytes env _ _ (ramp_json env d l x y hd hl)) _ ?_ (.inl h0) s hu
  refine ⟨_, _, rfl, rfl, ?_, ?_, ?_⟩
  · exact ⟨fun _ => .inl (by decide), fun _ => rfl⟩
  · exact hy
  · exact hx

/-- C101: without an address, or with one that is no group address, nothing happens,
whether or not the shell knows `[[`. -/
theorem C101_no_address (u : UniTable) (env : JEnv) (brackets : Bool) (name a d l : Str)
    (ha : ∀ ga, IsByte ga → ¬ DecimalText u a ga) (hs : '/' ∉ a) (cmds : List Cmd)
    (hc : cmds ∈ [cbusOn brackets name a, cbusOff brackets name a, cbusRamp brackets name a d l]) :
    ∀ m ∈ published cmds, ∀ s, Mqtt.onMessage u (loads env) m.1 m.2 s = (s, [], .ok ()) := by
  have key : ∀ (args usage : List Str) (p : Str) (m : Str × Bytes),
      m ∈ published (checked brackets args usage [.pub 1 (lightTopicPrefix ++ a ++ topicSetSuffix) p]) →
      m.1 = lightTopicPrefix ++ a ++ topicSetSuffix := by
    intro args usage p m hm
    unfold checked at hm
    split at hm
    · simp [published] at hm
    · simp only [published, List.filterMap_cons, List.filterMap_nil, List.mem_singleton] at hm
      rw [hm]
  intro m hm s
  refine C60_ignored u (loads env) m.1 m.2 s (.inl ?_)
  have : m.1 = lightTopicPrefix ++ a ++ topicSetSuffix := by
    simp only [List.mem_cons, List.not_mem_nil, or_false] at hc
    rcases hc with rfl | rfl | rfl
    · exact key _ _ _ m hm
    · exact key _ _ _ m hm
    · exact key _ _ _ m hm
  rw [this]
  exact typed_none u a ha hs

/-- C101: a message that `cbus_ramp` makes of something else is ignored if it is not
JSON. -/
theorem C101_not_json (u : UniTable) (env : JEnv) (brackets : Bool) (name a d l : Str)
    (h : ∀ v, ¬ JsonText env
      ("{ \"state\": \"ON\", \"transition\": ".toList ++ d ++ ", \"brightness\": ".toList ++ l ++ " }".toList) v)
    (hz : ∀ c ∈ d ++ l, c ≠ Char.ofNat 0) :
    ∀ m ∈ published (cbusRamp brackets name a d l), ∀ s, Mqtt.onMessage u (loads env) m.1 m.2 s = (s, [], .ok ()) := by
  intro m hm s
  refine C60_ignored u (loads env) m.1 m.2 s (.inr ?_)
  unfold cbusRamp checked at hm
  split at hm
  · simp [published] at hm
  · simp only [published, List.filterMap_cons, List.filterMap_nil, List.mem_singleton] at hm
    rw [hm]
    refine C100_not_json env _ h ?_ (by simp)
    intro c hc
    simp only [List.mem_append] at hc
    rcases hc with (((hc | hc) | hc) | hc) | hc
    · revert c; decide
    · exact hz c (by simp [hc])
    · revert c; decide
    · exact hz c (by simp [hc])
    · revert c; decide

/-- C101: `cbus_config` says first which topic it listens to, gives up after two seconds,
and does nothing else; `cbus_listen` says nothing and goes on for as long as it is left. -/
theorem C101_told (brackets : Bool) (name : Str) (ga : Int) :
    cbusConfig brackets name (toString ga).toList =
      [.echo ("Topic: ".toList ++ (topicText .lightConfig ga).toList), .sub 1 (some 2) (topicText .lightConfig ga).toList] ∧
    cbusListen brackets name (toString ga).toList = [.sub 1 none (topicText .lightState ga).toList] := by
  have hne : (toString ga).toList ≠ [] := by
    rw [← intStr_toString]
    unfold intStr
    split
    · simp
    · exact natStr_ne_nil _
  generalize hx : (toString ga).toList = x at hne
  have ht : (topicText .lightState ga).toList = "homeassistant/light/cbus_".toList ++ x ++ "/state".toList ∧
      (topicText .lightConfig ga).toList = "homeassistant/light/cbus_".toList ++ x ++ "/config".toList := by
    rw [← hx, ← intStr_toString]
    exact ⟨(C59_text .lightState ga).symm, (C59_text .lightConfig ga).symm⟩
  rw [ht.1, ht.2]
  unfold cbusListen cbusConfig
  have hx' : ∀ a ∈ [x], a ≠ [] := by
    intro a ha
    rw [List.mem_singleton.1 ha]
    exact hne
  rw [checked_run _ _ _ _ hx', checked_run _ _ _ _ hx']
  exact ⟨rfl, rfl⟩

/-- C101: `cbus_listen` and `cbus_config` listen to exactly the topic on which the
daemon publishes the state and the configuration of that light. -/
theorem C101_listen (brackets : Bool) (name : Str) (ga : Int) :
    listened (cbusListen brackets name (toString ga).toList) = [(topicText .lightState ga).toList] ∧
    listened (cbusConfig brackets name (toString ga).toList) = [(topicText .lightConfig ga).toList] := by
  rw [(C101_told brackets name ga).1, (C101_told brackets name ga).2]
  exact ⟨rfl, rfl⟩

/-- C101: so `cbus_listen` is told whatever the other scripts change. -/
theorem C101_heard (m : SetMessage) (brackets : Bool) (name : Str) (ga : Int) :
    ∃ v, (m.messages ga).head? = some (.publish (listened (cbusListen brackets name (toString ga).toList)).flatten (.json v) 1 true) := by
  rw [(C101_listen brackets name ga).1]
  unfold SetMessage.messages eventMessages stateMessage
  simp only [List.flatten_cons, List.flatten_nil, List.append_nil]
  split
  · split
    · exact ⟨_, rfl⟩
    · exact ⟨_, rfl⟩
  · exact ⟨_, rfl⟩

/-- C101: without an argument a shell that knows `[[` prints how to call the script, and
nothing else happens; `cbus_ramp` needs all three. -/
theorem C101_usage (name a d l : Str) (h : a = [] ∨ d = [] ∨ l = []) (cmds : List Cmd)
    (hc : cmds ∈ [cbusOn true name [], cbusOff true name [], cbusListen true name [], cbusConfig true name [],
      cbusRamp true name a d l]) :
    ∃ first rest, cmds = .echo ("Usage: ".toList ++ name ++ first) :: rest ++ [.exit 1] ∧ ∀ c ∈ rest, ∃ s, c = .echo s := by
  have key : ∀ (args : List Str) (x y z : Str) (r : List Cmd), [] ∈ args →
      ∃ first rest, checked true args ["Usage: ".toList ++ name ++ x, y, z] r =
        .echo ("Usage: ".toList ++ name ++ first) :: rest ++ [.exit 1] ∧ ∀ c ∈ rest, ∃ s, c = .echo s := by
    intro args x y z r ha
    refine ⟨x, [.echo y, .echo z], ?_, ?_⟩
    · unfold checked
      rw [if_pos]
      · rfl
      · simp only [Bool.true_and, List.any_eq_true]
        exact ⟨[], ha, rfl⟩
    · intro c hc
      simp only [List.mem_cons, List.not_mem_nil, or_false] at hc
      rcases hc with rfl | rfl <;> exact ⟨_, rfl⟩
  simp only [List.mem_cons, List.not_mem_nil, or_false] at hc
  rcases hc with rfl | rfl | rfl | rfl | rfl
  · exact key _ _ _ _ _ (by simp)
  · exact key _ _ _ _ _ (by simp)
  · exact key _ _ _ _ _ (by simp)
  · exact key _ _ _ _ _ (by simp)
  · refine key _ _ _ _ _ ?_
    rcases h with rfl | rfl | rfl <;> simp

/-- The last line that a script prints before it gives up. -/
def lastLine (cmds : List Cmd) : Option Str :=
  match cmds.dropLast.getLast? with
  | some (.echo s) => some s
  | _ => none

/-- C101: and the command line that is printed last as an example is one that does what
is said about it: it switches group address 1 on or off, dims it to 127 in 20 seconds,
and listens to its state and to its configuration. -/
theorem C101_example (u : UniTable) (env : JEnv) (name a d l : Str) (h : a = [] ∨ d = [] ∨ l = []) :
    lastLine (cbusOn true name []) = some ("   ".toList ++ name ++ " 1".toList) ∧
    lastLine (cbusOff true name []) = some ("   ".toList ++ name ++ " 1".toList) ∧
    lastLine (cbusListen true name []) = some ("   ".toList ++ name ++ " 1".toList) ∧
    lastLine (cbusConfig true name []) = some ("   ".toList ++ name ++ " 1".toList) ∧
    lastLine (cbusRamp true name a d l) = some ("   ".toList ++ name ++ " 1 20 127".toList) ∧
    Asks u env (cbusOn true name "1".toList) 1 { on := true } ∧
    Asks u env (cbusOff true name "1".toList) 1 { on := false } ∧
    Asks u env (cbusRamp true name "1".toList "20".toList "127".toList) 1 { on := true, brightness := 127, transition := 20 } ∧
    listened (cbusListen true name "1".toList) = [(topicText .lightState 1).toList] ∧
    listened (cbusConfig true name "1".toList) = [(topicText .lightConfig 1).toList] := by
  have h1 : DecimalText u "1".toList 1 := (C96_written u 1).1
  refine ⟨rfl, rfl, rfl, rfl, ?_, C101_on u env _ _ _ 1 h1 (by decide) (by decide),
    C101_off u env _ _ _ 1 h1 (by decide) (by decide), ?_, (C101_listen true name 1).1, (C101_listen true name 1).2⟩
  · unfold cbusRamp checked
    rw [if_pos]
    · rfl
    · rcases h with rfl | rfl | rfl <;> simp
  · exact C101_ramp u env true _ _ _ _ 1 h1 (by decide) (by decide) (.int 20) (.int 127) (.nat 20) (.nat 127) 20 127
      (.int _) (.int _) (by decide)

/-- The example in `cbus_ramp`. -/
example : Asks .ascii exampleEnv (cbusRamp true "cbus_ramp".toList "1".toList "20".toList "127".toList) 1
    { on := true, brightness := 127, transition := 20 } := by
  refine C101_ramp .ascii exampleEnv true _ _ _ _ 1 ?_ (by decide) (by decide) (.int 20) (.int 127) ?_ ?_ 20 127 (.int _) (.int _)
    (by decide)
  · exact (C96_decimal .ascii _).1 1 |>.1 (by decide +kernel)
  · exact .nat 20
  · exact .nat 127

/-- What `cbus_ramp` is given goes into the message as it is, so an argument that is no
number can change its meaning. -/
example : (published (cbusRamp true [] "1".toList "0, \"state\": \"OFF\"".toList "1".toList)).map
      (fun m => loadsText exampleEnv (m.2.map fun b => Char.ofNat b.toNat)) =
    [some (.obj [("state".toList, .str "OFF".toList), ("transition".toList, .num (.int 0)),
      ("brightness".toList, .num (.int 1))])] := by decide +kernel

end CBus.Props
