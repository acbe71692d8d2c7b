import Verif.Props.Startup
import Verif.Props.ClientEvents
import Verif.Props.Entrypoint
import Verif.Spec.Life

/-! # C135: from the variables of the container to the network and the broker -/

namespace CBus.Props
open CBus CBus.Cbz CBus.Daemon CBus.Spec CBus.Spec.Cbz CBus.Entry
variable {α : Type} [DecidableEq α]

/-- The connection that the variables ask for: `SERIAL_PORT`, or else `CNI_ADDR` with a
host and a port. -/
inductive AsksPci (e : Environ) : Act → Prop
  | serial (s : Str) (h : e.serialPort = some s) (hne : s ≠ []) : AsksPci e (.openSerial s)
  | tcp (host : Str) (port : Int) (hs : ¬ Given e.serialPort) (h : e.cniAddr = some (host ++ ':' :: (toString port).toList))
      (hh : ':' ∉ host) : AsksPci e (.openTcp host port)

/-- The port of the broker: `MQTT_PORT`, or else 1883 without TLS and 8883 with it. -/
inductive AsksPort (e : Environ) (port : Int) : Int → Prop
  | given (h : port ≠ 0) : AsksPort e port port
  | plain (h : port = 0) (ht : TurnsOff e.useTls) : AsksPort e port 1883
  | tls (h : port = 0) (ht : ¬ TurnsOff e.useTls) : AsksPort e port 8883

/-- User name and password: those of the file, if it is there. -/
inductive AsksLogin (u : UniTable) (files : Args.Files) (e : Environ) : List Act → Prop
  | file (text : Str) (h : e.auth = true) (ht : files.text authPath = some text) :
      AsksLogin u files e [.credentials (readAuth u text).1 (readAuth u text).2]
  | none (h : e.auth = false) : AsksLogin u files e []

/-- TLS, with the files that are there. -/
inductive AsksTls (e : Environ) : List Act → Prop
  | off (h : TurnsOff e.useTls) : AsksTls e []
  | on (h : ¬ TurnsOff e.useTls) (ca cert key : Option Str) (hca : ca = if e.certificates then some certificatesPath else Option.none)
      (hcert : cert = if e.clientCert && e.clientKey then some clientCertPath else Option.none)
      (hkey : key = if e.clientCert && e.clientKey then some clientKeyPath else Option.none) : AsksTls e [.tls ca cert key]

/-- C135: if a container runs, the steps that it has taken are exactly those that its
variables and files ask for, and the handler has the settings that they ask for. -/
theorem C135_steps (env : Cbz.Env) (files : Args.Files) (glob : Str → List Str) (hg : Globs glob) (e : Environ)
    (hs : ∀ x ∈ [e.mqttServer, e.timesync, e.mqttPort, e.serialPort, e.cniAddr], ∀ s, setTo x = some s → Simple s)
    (server : Str) (h1 : e.mqttServer = some server) (h1' : server ≠ []) (act : Act) (h2 : AsksPci e act)
    (port timesync : Int) (hport : Number env.uni 0 (setTo e.mqttPort) port)
    (htime : Number env.uni 300 (setTo e.timesync) timesync)
    (ha : e.auth = true → ∃ t, files.text authPath = some t)
    (hp : e.project = true → ∃ f, files.binary projectPath = some f) :
    ∃ argv o, run glob e = some argv ∧ Args.parse env files argv = .ok o ∧
      ∀ (w : World α) acts h m, startup w env o = (acts, .running h m) →
        (∃ login tls p, AsksLogin env.uni files e login ∧ AsksTls e tls ∧ AsksPort e port p ∧
          acts = act :: login ++ tls ++ [.connectBroker server p 60]) ∧
        h.timesync = timesync ∧ (h.clock = false ↔ TurnsOff e.clock) ∧
        (e.project = false → h.labels = []) ∧
        (∀ f, e.project = true → files.binary projectPath = some f → readCbzLabels env f = some (.ok h.labels)) := by
  have hgiven : Given e.serialPort ∨ Given e.cniAddr := by
    cases h2 with
    | serial s h hne => exact .inl ⟨s, h, hne⟩
    | tcp host port hs h hh => exact .inr ⟨_, h, by simp⟩
  obtain ⟨argv, o, hr, hpar, o1, o2, o3, o4, o5, o6, o7, o8, o9, o10, o11, o12⟩ :=
    options_given env files glob hg e hs ⟨server, h1, h1'⟩ hgiven port timesync hport htime ha hp
  refine ⟨argv, o, hr, hpar, fun w acts h m hst => ?_⟩
  have hact : connectPci env o = .ok act := by
    cases h2 with
    | serial s hsp hne =>
      have e1 := (o5 ⟨s, hsp, hne⟩).1
      unfold connectPci
      rw [e1, hsp, if_pos ((truthy_iff _).2 ⟨s, rfl, hne⟩)]
      rfl
    | tcp host p hsp hcni hh =>
      obtain ⟨e1, e2⟩ := o6 hsp
      exact C83_host_partial env o host p hh e1 (by rw [e2, hcni])
  rw [h1] at o1
  injection o1 with o1
  rcases startup_cases w env o with ⟨-, -, h3⟩ | ⟨act', h', p, hpci, hgc, hb, hm, hcase⟩
  · rw [h3] at hst; cases hst
  · rw [hact] at hpci
    injection hpci with hpci
    subst hpci
    have hrun : acts = act :: connectBroker env o ∧ h = h' := by
      rcases hcase with ⟨-, z, hz⟩ | ⟨-, -, z, hz, -⟩ | ⟨-, _, z, hz, -⟩
      · rw [hz] at hst; cases hst
      · rw [hz] at hst
        injection hst with e1 e2
        injection e2 with e2 e3
        exact ⟨e1.symm, e2.symm⟩
      · rw [hz] at hst; cases hst
    obtain ⟨rfl, rfl⟩ := hrun
    obtain ⟨-, r1, r2, r3, r4⟩ := C82_running env o _ h hm
    refine ⟨?_, by rw [r1, o3], ?_, ?_, ?_⟩
    · have hlogin : ∃ login, AsksLogin env.uni files e login ∧ login = (match o.auth with
          | some text => [.credentials (readAuth env.uni text).1 (readAuth env.uni text).2]
          | none => []) := by
        cases hau : e.auth with
        | false =>
          refine ⟨[], .none hau, ?_⟩
          rw [o10, hau]
          rfl
        | true =>
          obtain ⟨t, ht⟩ := ha hau
          refine ⟨_, .file t hau ht, ?_⟩
          rw [o10, hau, if_pos rfl, ht]
      obtain ⟨login, hl1, hl2⟩ := hlogin
      have hcb : connectBroker env o = login ++ (if o.disableTls
          then [.connectBroker o.brokerAddress (orInt o.brokerPort 1883) o.keepalive]
          else [.tls (ifTrue o.ca) (ifTrue o.clientCert) (if truthy o.clientCert then o.clientKey else none),
            .connectBroker o.brokerAddress (orInt o.brokerPort 8883) o.keepalive]) := by
        rw [hl2]
        rfl
      rw [hcb]
      by_cases ht : TurnsOff e.useTls
      · have hd := o8.2 ht
        refine ⟨login, [], orInt o.brokerPort 1883, hl1, .off ht, ?_, ?_⟩
        · rw [o2]
          unfold orInt
          split
          · rename_i hz; exact .plain hz ht
          · rename_i hz; exact .given hz
        · rw [if_pos hd, o1, o4]
          simp
      · have hd : o.disableTls = false := by
          cases hdd : o.disableTls with
          | true => exact absurd (o8.1 hdd) ht
          | false => rfl
        obtain ⟨c1, c2, c3⟩ := o9 ht
        have hpath : ∀ s : Str, s ≠ [] → ∀ b : Bool, ifTrue (if b then some s else none) = if b then some s else none := by
          intro s hs b
          cases b with
          | false => rfl
          | true =>
            simp only [if_true]
            unfold ifTrue
            rw [if_pos ((truthy_iff _).2 ⟨s, rfl, hs⟩)]
        refine ⟨login, [.tls (ifTrue o.ca) (ifTrue o.clientCert) (if truthy o.clientCert then o.clientKey else none)],
          orInt o.brokerPort 8883, hl1, .on ht _ _ _ ?_ ?_ ?_, ?_, ?_⟩
        · rw [c1]; exact hpath _ (by decide) _
        · rw [c2]; exact hpath _ (by decide) _
        · rw [c2, c3]
          cases (e.clientCert && e.clientKey)
          · rfl
          · rfl
        · rw [o2]
          unfold orInt
          split
          · rename_i hz; exact .tls hz ht
          · rename_i hz; exact .given hz
        · rw [if_neg (by rw [hd]; simp), o1, o4]
          simp
    · rw [← o7]
      have := r2
      cases hc : h.clock <;> cases hn : o.noClock <;> simp_all
    · intro hpr
      apply r3
      cases hop : o.project with
      | none => rfl
      | some f =>
        have := o11.1 (by rw [hop]; rfl)
        rw [hpr] at this
        cases this
    · intro f hpr hf
      have hsome := o11.2 hpr
      cases hop : o.project with
      | none => rw [hop] at hsome; cases hsome
      | some f' =>
        have := o12 f' hop
        rw [hf] at this
        injection this with this
        subst this
        exact r4 f hop

/-- C135: and with these settings it sets up the PCI; it starts the task that sends the
time if the number of seconds is not 0, and the task sends it at once and after every so
many seconds if that is positive, and never otherwise. -/
theorem C135_time (h : Handler) (now : Nat → PyDateTime) (hnow : ∀ n, DateTimeOk (now n)) :
    (Client.connectionMade (π := MqttEff) h.client).2 = (setUp h.timesync 0, .ok ()) ∧
    ∀ (s : Client) (others : List (Proc Client (Eff MqttEff) Unit)), Up s → s.timesync = h.timesync → (∀ m ∈ others, Harmless m) →
      ticksOf (Client.timesyncTask now others s).2.1 =
        if 0 < h.timesync then (List.replicate (others.length + 1) [none, some h.timesync]).flatten else [] := by
  constructor
  · obtain ⟨c1, c2, c3, hc, hm⟩ := C46_connect (π := MqttEff) h.client (by decide : (0 : Nat) < 20)
    have h3 : cycleFrom 0 3 = [codeAt 0, codeAt 1, codeAt 2] := by decide +kernel
    have hc' : cycleFrom 0 3 = [c1, c2, c3] := hc
    rw [h3] at hc'
    simp only [List.cons.injEq, and_true] at hc'
    obtain ⟨rfl, rfl, rfl⟩ := hc'
    rw [hm]
    rfl
  · intro s others hu ht ho
    split
    · rename_i hpos
      rw [← ht] at hpos ⊢
      exact (C73_periodic now hnow s hu hpos others ho).1
    · rename_i hpos
      rw [C73_disabled now s (by omega) others]
      rfl

/-! A container without TLS that sends the time every minute, with user name and password. -/

def containerEnviron : Environ := {
  mqttServer := some "broker".toList, cniAddr := some "192.0.2.1:10001".toList, useTls := some "0".toList
  timesync := some "60".toList, auth := true }
def containerFiles : Args.Files :=
  { text := fun p => if p = authPath then some "me\nsecret\n".toList else none, binary := fun _ => none }
def containerWorld : World Nat :=
  { sampleWorld with tcp := fun _ _ => .ok (), server := fun _ p _ => if p = 1883 then some ⟨none, []⟩ else none }
def settingsOf {α : Type} : StartEnd α → Option (Int × Bool)
  | .running h _ => some (h.timesync, h.clock)
  | _ => none

example : (((run (fun w => [w]) containerEnviron).bind fun argv => (Args.parse .ascii containerFiles argv).toOption).map fun o =>
      ((startup containerWorld .ascii o).1, settingsOf (startup containerWorld .ascii o).2)) =
    some ([.openTcp "192.0.2.1".toList 10001, .credentials "me".toList "secret".toList, .connectBroker "broker".toList 1883 60],
      some (60, true)) := by decide +kernel
example : AsksPci containerEnviron (.openTcp "192.0.2.1".toList 10001) :=
  .tcp _ _ (by rintro ⟨s, h, -⟩; cases h) (by decide) (by decide)
example : AsksLogin .ascii containerFiles containerEnviron [.credentials "me".toList "secret".toList] :=
  .file "me\nsecret\n".toList rfl (by decide)
example : TurnsOff containerEnviron.useTls ∧ ¬ TurnsOff containerEnviron.clock ∧
    (Client.connectionMade (π := MqttEff) (Handler.client ⟨60, true, []⟩)).2.1 = setUp 60 0 := by
  refine ⟨⟨⟨_, rfl, by decide⟩, by decide⟩, (by rintro ⟨⟨s, h, -⟩, -⟩; cases h), ?_⟩
  rw [(C135_time ⟨60, true, []⟩ (fun _ => ⟨⟨2024, 2, 29⟩, ⟨12, 34, 56, 0⟩⟩) (fun _ => ⟨by unfold PyDate.Valid; decide, by unfold PyTime.Valid; decide⟩)).1]

/-- C135: and the lights are announced under the names in the project file of the
container, or under generated names. -/
theorem C135_names (env : Cbz.Env) (version name : Str) (nets : List (Int × Str × List (Int × Str × List (Int × Str))))
    (f : OpenFile) (hf : HoldsReadably f (installationXml version name nets)) (h : Handler)
    (hl : readCbzLabels env f = some (.ok h.labels)) (ga : Int) (hg : ga ∈ groupAddresses) (s : Client) :
    AnnouncedAs env nets ga (Mqtt.onConnect (intLabels h.labels) s).2.1 := by
  obtain ⟨labels, h1, h2⟩ := C77_announced_partial env version name nets f hf
  rw [hl] at h1
  injection h1 with h1
  injection h1 with h1
  subst h1
  exact h2 ga hg s

/-- C135: without a project file the names are made from the group addresses. -/
theorem C135_unnamed (h : Handler) (hl : h.labels = []) (ga : Int) (hg : ga ∈ groupAddresses) (s : Client) :
    (∃ v, IsLightConfig ("C-Bus Light ".toList ++ threeDigits ga.toNat) ga v ∧
      (.ext (.publish (topicText .lightConfig ga).toList (.json (.obj v)) 1 true)) ∈ (Mqtt.onConnect (intLabels h.labels) s).2.1) ∧
    (∃ v, IsSensorConfig ("C-Bus Light ".toList ++ threeDigits ga.toNat) ga v ∧
      (.ext (.publish (topicText .sensorConfig ga).toList (.json (.obj v)) 1 true)) ∈ (Mqtt.onConnect (intLabels h.labels) s).2.1) := by
  obtain ⟨⟨v, k1, k2⟩, w, k3, k4⟩ := C66_announced (intLabels h.labels) ga hg
  rw [C66_connect]
  have hn : lightName (intLabels h.labels) ga = "C-Bus Light ".toList ++ threeDigits ga.toNat := by
    rw [hl]
    rfl
  rw [hn] at k2 k4
  refine ⟨⟨v, k2, ?_⟩, ⟨w, k4, ?_⟩⟩
  · exact List.mem_cons_of_mem _ (List.mem_map.2 ⟨_, (List.mem_filter.1 (k1 ▸ List.mem_singleton_self _)).1, rfl⟩)
  · exact List.mem_cons_of_mem _ (List.mem_map.2 ⟨_, (List.mem_filter.1 (k3 ▸ List.mem_singleton_self _)).1, rfl⟩)

end CBus.Props
