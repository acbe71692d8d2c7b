import Verif.Props.Life
import Verif.Props.Startup
import Verif.Props.Announced

/-! # C169: what the labels of a project file have an effect on -/

namespace CBus.Props
open CBus CBus.Cbz CBus.Daemon CBus.Spec

/-! ## What is asked for -/

/-- Two effects that are the same, or that are the configuration of one of certain group
addresses with two names. -/
inductive Renamed (differs : Int → Prop) : Eff MqttEff → Eff MqttEff → Prop
  | same (x : Eff MqttEff) : Renamed differs x x
  | config (k : TopicKind) (ga : Int) (hk : k = .lightConfig ∨ k = .sensorConfig) (hd : differs ga) (name name' : Str)
      (v : List (Str × JVal)) (q : Nat) (r : Bool) :
      Renamed differs (.ext (.publish (topicText k ga).toList (.json (.obj (("name".toList, .str name) :: v))) q r))
        (.ext (.publish (topicText k ga).toList (.json (.obj (("name".toList, .str name') :: v))) q r))

/-- Effect by effect. -/
inductive AllRenamed (differs : Int → Prop) : List (Eff MqttEff) → List (Eff MqttEff) → Prop
  | nil : AllRenamed differs [] []
  | cons {x y l l'} : Renamed differs x y → AllRenamed differs l l' → AllRenamed differs (x :: l) (y :: l')

/-- Two histories that differ only in the labels that the daemon has: where they give different
names to a light, it is one of certain group addresses. -/
inductive Relabelled (differs : Int → Prop) : List DaemonStep → List DaemonStep → Prop
  | nil : Relabelled differs [] []
  | step {xs ys} (x : DaemonStep) : Relabelled differs xs ys → Relabelled differs (x :: xs) (x :: ys)
  | broker {xs ys} (labels labels' : List (Int × Str))
      (h : ∀ ga ∈ groupAddresses, lightName labels ga ≠ lightName labels' ga → differs ga) :
      Relabelled differs xs ys → Relabelled differs (.broker labels :: xs) (.broker labels' :: ys)

/-- Step by step: the same result, and the same effects but for names. -/
inductive StepsRenamed (differs : Int → Prop) : List (List (Eff MqttEff) × Py Unit) → List (List (Eff MqttEff) × Py Unit) → Prop
  | nil : StepsRenamed differs [] []
  | cons {o o' r l l'} : AllRenamed differs o o' → StepsRenamed differs l l' → StepsRenamed differs ((o, r) :: l) ((o', r) :: l')

/-! ## Proofs -/

theorem AllRenamed.refl (differs : Int → Prop) : ∀ l, AllRenamed differs l l
  | [] => .nil
  | x :: l => .cons (.same x) (AllRenamed.refl differs l)

theorem AllRenamed.append {differs : Int → Prop} {a a' b b' : List (Eff MqttEff)} (h : AllRenamed differs a a')
    (h' : AllRenamed differs b b') : AllRenamed differs (a ++ b) (a' ++ b') := by
  induction h with
  | nil => exact h'
  | cons hx _ ih => exact .cons hx ih

theorem configs_renamed (differs : Int → Prop) (labels labels' : List (Int × Str)) : ∀ gas : List Int,
    (∀ ga ∈ gas, lightName labels ga ≠ lightName labels' ga → differs ga) →
    AllRenamed differs ((gas.flatMap (configsOf labels)).map .ext) ((gas.flatMap (configsOf labels')).map .ext) := by
  intro gas
  induction gas with
  | nil => exact fun _ => .nil
  | cons g gas ih =>
    intro h
    have h2 := ih fun ga hg => h ga (List.mem_cons_of_mem _ hg)
    rw [List.flatMap_cons, List.flatMap_cons, List.map_append, List.map_append]
    refine AllRenamed.append ?_ h2
    by_cases hn : lightName labels g = lightName labels' g
    · unfold configsOf
      rw [hn]
      exact .refl _ _
    · have hd := h g List.mem_cons_self hn
      exact .cons (.config .lightConfig g (.inl rfl) hd _ _ _ 1 true) (.cons (.config .sensorConfig g (.inr rfl) hd _ _ _ 1 true) .nil)

/-- C169: two histories of the daemon that differ only in its labels: step for step it does the
same, raises the same and is in the same state; only the names in the configurations differ, and
only for lights that the labels name differently. -/
theorem C169_labels (u : UniTable) (loads : Bytes → Option JVal) (now : Nat → PyDateTime) (differs : Int → Prop)
    {xs ys : List DaemonStep} (h : Relabelled differs xs ys) : ∀ c : Conn Client,
    (daemonRun u loads now xs c).1 = (daemonRun u loads now ys c).1 ∧
    StepsRenamed differs (daemonRun u loads now xs c).2 (daemonRun u loads now ys c).2 := by
  induction h with
  | nil => exact fun c => ⟨rfl, .nil⟩
  | step x _ ih =>
    intro c
    have h := ih (daemonDo u loads now x c).1
    exact ⟨h.1, .cons (.refl _ _) h.2⟩
  | broker labels labels' hl _ ih =>
    intro c
    have h1 := C66_connect labels c.st
    have h2 := C66_connect labels' c.st
    have h3 : daemonDo u loads now (.broker labels) c = ({ c with st := { c.st with mqttApi := true } },
        .ext (.subscribe (groupAddresses.map fun ga => ((topicText .lightSet ga).toList, 2))) ::
        (metaMessage :: groupAddresses.flatMap (configsOf labels)).map .ext, .ok ()) := by
      show daemonDo.onState _ c = _
      unfold daemonDo.onState
      rw [h1]
    have h4 : daemonDo u loads now (.broker labels') c = ({ c with st := { c.st with mqttApi := true } },
        .ext (.subscribe (groupAddresses.map fun ga => ((topicText .lightSet ga).toList, 2))) ::
        (metaMessage :: groupAddresses.flatMap (configsOf labels')).map .ext, .ok ()) := by
      show daemonDo.onState _ c = _
      unfold daemonDo.onState
      rw [h2]
    unfold daemonRun
    dsimp only
    rw [h3, h4]
    have h := ih { c with st := { c.st with mqttApi := true } }
    exact ⟨h.1, .cons (.cons (.same _) (.cons (.same _) (configs_renamed differs labels labels' _ hl))) h.2⟩

/-- C169: so labels that give all 256 lights the same names make no difference at all, for
instance those of groups that are not in the lighting application's range. -/
theorem C169_same (u : UniTable) (loads : Bytes → Option JVal) (now : Nat → PyDateTime) (labels labels' : List (Int × Str))
    (h : ∀ ga ∈ groupAddresses, lightName labels ga = lightName labels' ga) (c : Conn Client) :
    daemonDo u loads now (.broker labels) c = daemonDo u loads now (.broker labels') c := by
  have hc : ∀ gas : List Int, (∀ ga ∈ gas, lightName labels ga = lightName labels' ga) →
      gas.flatMap (configsOf labels) = gas.flatMap (configsOf labels') := by
    intro gas
    induction gas with
    | nil => exact fun _ => rfl
    | cons g gas ih =>
      intro h
      rw [List.flatMap_cons, List.flatMap_cons, ih fun ga hg => h ga (List.mem_cons_of_mem _ hg)]
      unfold configsOf
      rw [h g List.mem_cons_self]
  show daemonDo.onState _ c = daemonDo.onState _ c
  unfold daemonDo.onState
  rw [C66_connect, C66_connect, hc _ h]

/-- C169: a project file that can be read makes no difference to the start but for the labels that
the daemon has. -/
theorem C169_start {α : Type} [DecidableEq α] (w : World α) (env : Cbz.Env) (o : Daemon.Options) (f : OpenFile)
    (labels : List (Option Int × Str)) (hl : readCbzLabels env f = some (.ok labels)) :
    (startup w env { o with project := some f }).1 = (startup w env { o with project := none }).1 ∧
    ((∃ (h : Handler) (m : Session α), (startup w env { o with project := some f }).2 = .running { h with labels := labels } m ∧
        (startup w env { o with project := none }).2 = .running { h with labels := [] } m) ∨
     (startup w env { o with project := some f }).2 = (startup w env { o with project := none }).2) := by
  have hb : connectBroker env { o with project := some f } = connectBroker env { o with project := none } := rfl
  have hp : connectPci env { o with project := some f } = connectPci env { o with project := none } := rfl
  unfold startup main
  rw [hb, hp]
  generalize connectBroker env { o with project := none } = b
  generalize connectPci env { o with project := none } = c
  dsimp only
  rw [hl]
  by_cases hc : truthy o.clientCert = truthy o.clientKey
  · rw [if_neg (by simp [hc]), if_neg (by simp [hc])]
    cases c with
    | error e => exact ⟨rfl, .inr rfl⟩
    | ok a =>
      dsimp only
      rcases performAll w {} (a :: b) with ⟨done, e | m⟩
      · exact ⟨rfl, .inr rfl⟩
      · exact ⟨rfl, .inl ⟨⟨o.timesync, !o.noClock, []⟩, m, rfl, rfl⟩⟩
  · rw [if_pos hc, if_pos hc]
    exact ⟨rfl, .inr rfl⟩

/-- Not vacuous: the kitchen is named, and only its two configurations differ. -/
example (u : UniTable) (loads : Bytes → Option JVal) (now : Nat → PyDateTime) (c : Conn Client) (d : Bytes) :
    StepsRenamed (· = 5) (daemonRun u loads now [.broker [(5, "Kitchen".toList)], .receive d] c).2
      (daemonRun u loads now [.broker [], .receive d] c).2 := by
  refine (C169_labels u loads now _ (.broker _ _ ?_ (.step _ .nil)) c).2
  intro ga _ hn
  by_cases h : ga = 5
  · exact h
  · refine absurd ?_ hn
    have : ¬ (5 : Int) = ga := fun e => h e.symm
    unfold lightName dictGet
    simp [List.find?, this]

/-- Another topic or another state is not a change of a name. -/
example : ¬ Renamed (fun _ => True) (.ext (sensorMessage 5 true)) (.ext (sensorMessage 5 false)) := by
  intro h
  generalize hx : Eff.ext (sensorMessage 5 true) = x at h
  generalize hy : Eff.ext (sensorMessage 5 false) = y at h
  cases h with
  | same => rw [← hy] at hx; revert hx; decide
  | config k ga hk hd name name' v q r =>
    unfold sensorMessage at hx
    injection hx with hx
    injection hx with _ hx
    cases hx

end CBus.Props
