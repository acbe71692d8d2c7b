import Verif.Model.DockerRun
import Verif.Props.Container

/-! # C137: the commands with which the documentation starts the container -/

namespace CBus.Props
open CBus CBus.Cbz CBus.Daemon CBus.Spec CBus.Spec.Cbz CBus.Entry
variable {α : Type} [DecidableEq α]

/-- The variables that docs/cmqttd.rst:364-430 and the script know. -/
def knownVars : List Str :=
  ["MQTT_SERVER", "CBUS_TIMESYNC", "MQTT_PORT", "SERIAL_PORT", "CNI_ADDR", "CBUS_CLOCK", "MQTT_USE_TLS"].map String.toList

/-- C137: no other variable has an influence on how `cmqttd` is started. -/
theorem C137_known (glob : Str → List Str) (path : Str → Option PathKind) (var var' : Str → Option Str)
    (h : ∀ n ∈ knownVars, var n = var' n) : run glob (ofVars var path) = run glob (ofVars var' path) := by
  have he : ofVars var path = ofVars var' path := by
    unfold ofVars
    rw [h _ (by decide : "MQTT_SERVER".toList ∈ knownVars), h _ (by decide : "CBUS_TIMESYNC".toList ∈ knownVars),
      h _ (by decide : "MQTT_PORT".toList ∈ knownVars), h _ (by decide : "SERIAL_PORT".toList ∈ knownVars),
      h _ (by decide : "CNI_ADDR".toList ∈ knownVars), h _ (by decide : "CBUS_CLOCK".toList ∈ knownVars),
      h _ (by decide : "MQTT_USE_TLS".toList ∈ knownVars)]
  rw [he]

/-- The settings of the first example, docs/cmqttd.rst:460-462. -/
def dockerPlain : List Str :=
  ["SERIAL_PORT=/dev/ttyUSB0", "MQTT_SERVER=192.0.2.1", "MQTT_USE_TLS=0", "TZ=Australia/Adelaide"].map String.toList
/-- The settings of the second example, docs/cmqttd.rst:477-479. -/
def dockerLogin : List Str :=
  ["SERIAL_PORT=/dev/ttyUSB0", "MQTT_SERVER=192.0.2.1", "TZ=Australia/Adelaide"].map String.toList
/-- The settings of the third example, docs/cmqttd.rst:484-489. -/
def dockerHassio : List Str :=
  ["TZ=Australia/Adelaide", "BROKER_USE_TLS=0", "SERIAL_PORT=/dev/ttyUSB0", "MQTT_SERVER=core-mosquitto"].map String.toList

/-- A container with these settings, and with these files: the steps of `cmqttd`, whenever
it runs. -/
def RunsWith (env : Cbz.Env) (glob : Str → List Str) (settings : List Str) (files : Args.Files)
    (path : Str → Option PathKind) (steps : List Act → Prop) : Prop :=
  ∃ argv o, run glob (ofVars (dockerVar settings) path) = some argv ∧ Args.parse env files argv = .ok o ∧
    ∀ (w : World α) acts h m, startup w env o = (acts, .running h m) → steps acts

/-- Nothing is in `/etc/cmqttd`. -/
def NoFiles (path : Str → Option PathKind) : Prop :=
  ∀ p ∈ [certificatesPath, clientCertPath, clientKeyPath, authPath, projectPath], path p = none

/-- There is only the file with the user name and the password. -/
def OnlyLogin (path : Str → Option PathKind) : Prop :=
  path authPath = some .file ∧ ∀ p ∈ [certificatesPath, clientCertPath, clientKeyPath, projectPath], path p = none

/-- The claim: the examples connect to the PCI and the broker that they name, the first and the
third without TLS, the second with it and with the user name and the password of the file. -/
def C137_claim : Prop :=
  ∀ (env : Cbz.Env) (glob : Str → List Str), Globs glob → ∀ (files : Args.Files) (path : Str → Option PathKind),
    (NoFiles path → RunsWith (α := Nat) env glob dockerPlain files path fun acts =>
      acts = [.openSerial "/dev/ttyUSB0".toList, .connectBroker "192.0.2.1".toList 1883 60]) ∧
    (∀ text, OnlyLogin path → files.text authPath = some text → RunsWith (α := Nat) env glob dockerLogin files path fun acts =>
      acts = [.openSerial "/dev/ttyUSB0".toList, .credentials (readAuth env.uni text).1 (readAuth env.uni text).2,
        .tls none none none, .connectBroker "192.0.2.1".toList 8883 60]) ∧
    (NoFiles path → RunsWith (α := Nat) env glob dockerHassio files path fun acts =>
      acts = [.openSerial "/dev/ttyUSB0".toList, .connectBroker "core-mosquitto".toList 1883 60])

/-- The examples, with what they ask for. -/
theorem docker_steps (env : Cbz.Env) (glob : Str → List Str) (hg : Globs glob) (files : Args.Files) (path : Str → Option PathKind)
    (settings : List Str) (server : Str) (h1 : dockerVar settings "MQTT_SERVER".toList = some server) (hserver : Simple server)
    (h2 : dockerVar settings "SERIAL_PORT".toList = some "/dev/ttyUSB0".toList)
    (h3 : dockerVar settings "CBUS_TIMESYNC".toList = none) (h4 : dockerVar settings "MQTT_PORT".toList = none)
    (h5 : dockerVar settings "CNI_ADDR".toList = none) (hserver' : server ≠ [])
    (ha : path authPath ≠ none → ∃ t, files.text authPath = some t) (hp : path projectPath = none) :
    RunsWith (α := α) env glob settings files path fun acts => ∃ login tls p,
      AsksLogin env.uni files (ofVars (dockerVar settings) path) login ∧ AsksTls (ofVars (dockerVar settings) path) tls ∧
      AsksPort (ofVars (dockerVar settings) path) 0 p ∧
      acts = .openSerial "/dev/ttyUSB0".toList :: login ++ tls ++ [.connectBroker server p 60] := by
  have same : ∀ x s : Str, setTo (some x) = some s → s = x := by
    intro x s h
    unfold setTo at h
    simp only [Option.filter_eq_some_iff, Option.some.injEq] at h
    exact h.1.symm
  have e1 : (ofVars (dockerVar settings) path).mqttServer = some server := h1
  have e2 : (ofVars (dockerVar settings) path).serialPort = some "/dev/ttyUSB0".toList := h2
  have e3 : (ofVars (dockerVar settings) path).timesync = none := h3
  have e4 : (ofVars (dockerVar settings) path).mqttPort = none := h4
  have e5 : (ofVars (dockerVar settings) path).cniAddr = none := h5
  have e6 : (ofVars (dockerVar settings) path).auth = true → path authPath ≠ none := by
    intro h h'
    have : (path authPath).isSome = true := h
    rw [h'] at this; cases this
  have e7 : (ofVars (dockerVar settings) path).project = false := by
    show (path projectPath).isSome = false
    rw [hp]; rfl
  obtain ⟨argv, o, hr, hpar, hrun⟩ := C135_steps (α := α) env files glob hg (ofVars (dockerVar settings) path)
    (by
      intro x hx s hs
      rw [e1, e2, e3, e4, e5] at hx
      simp only [List.mem_cons, List.not_mem_nil, or_false] at hx
      rcases hx with rfl | rfl | rfl | rfl | rfl
      · rw [same _ _ hs]; exact hserver
      · cases hs
      · cases hs
      · rw [same _ _ hs]; unfold Simple PlainWord; decide
      · cases hs)
    server e1 hserver' _ (.serial _ e2 (by decide)) 0 300
    (by rw [e4]; exact .inl ⟨rfl, rfl⟩) (by rw [e3]; exact .inl ⟨rfl, rfl⟩)
    (fun h => ha (e6 h)) (fun h => by rw [e7] at h; cases h)
  exact ⟨argv, o, hr, hpar, fun w acts h m hst => (hrun w acts h m hst).1⟩

theorem isSome_none {β : Type} {x : Option β} (h : x = none) : x.isSome = false := by rw [h]; rfl

theorem RunsWith.mono {env : Cbz.Env} {glob : Str → List Str} {settings : List Str} {files : Args.Files}
    {path : Str → Option PathKind} {p q : List Act → Prop} (h : RunsWith (α := α) env glob settings files path p)
    (hpq : ∀ acts, p acts → q acts) : RunsWith (α := α) env glob settings files path q := by
  obtain ⟨argv, o, h1, h2, h3⟩ := h
  exact ⟨argv, o, h1, h2, fun w acts h m hst => hpq acts (h3 w acts h m hst)⟩

/-- What TLS and the port are without any files. -/
theorem docker_noFiles {settings : List Str} {path : Str → Option PathKind}
    (hn : ∀ p ∈ [certificatesPath, clientCertPath, clientKeyPath], path p = none) {tls : List Act} {p : Int}
    (ht : AsksTls (ofVars (dockerVar settings) path) tls) (hp : AsksPort (ofVars (dockerVar settings) path) 0 p) :
    (TurnsOff (dockerVar settings "MQTT_USE_TLS".toList) → tls = [] ∧ p = 1883) ∧
    (¬ TurnsOff (dockerVar settings "MQTT_USE_TLS".toList) → tls = [.tls none none none] ∧ p = 8883) := by
  have e1 : (ofVars (dockerVar settings) path).certificates = false := by
    show decide (path certificatesPath = some .dir) = false
    rw [hn _ (by simp)]; rfl
  have e2 : (ofVars (dockerVar settings) path).clientCert = false := isSome_none (hn _ (by simp))
  constructor
  · intro h
    refine ⟨?_, ?_⟩
    · cases ht with
      | off _ => rfl
      | on h' => exact absurd h h'
    · cases hp with
      | given h' => exact absurd rfl h'
      | plain _ _ => rfl
      | tls _ h' => exact absurd h h'
  · intro h
    refine ⟨?_, ?_⟩
    · cases ht with
      | off h' => exact absurd h' h
      | on _ ca cert key hca hcert hkey =>
        rw [e1] at hca
        rw [e2] at hcert hkey
        subst hca hcert hkey
        rfl
    · cases hp with
      | given h' => exact absurd rfl h'
      | plain _ h' => exact absurd h' h
      | tls _ _ => rfl

theorem docker_noLogin {u : UniTable} {settings : List Str} {files : Args.Files} {path : Str → Option PathKind}
    (hn : path authPath = none) {login : List Act} (h : AsksLogin u files (ofVars (dockerVar settings) path) login) : login = [] := by
  cases h with
  | file text h _ =>
    have : (path authPath).isSome = true := h
    rw [hn] at this; cases this
  | none _ => rfl

/-- C137: the first two examples do what the documentation says. -/
theorem C137_partial (env : Cbz.Env) (glob : Str → List Str) (hg : Globs glob) (files : Args.Files) (path : Str → Option PathKind) :
    (NoFiles path → RunsWith (α := α) env glob dockerPlain files path fun acts =>
      acts = [.openSerial "/dev/ttyUSB0".toList, .connectBroker "192.0.2.1".toList 1883 60]) ∧
    (∀ text, OnlyLogin path → files.text authPath = some text → RunsWith (α := α) env glob dockerLogin files path fun acts =>
      acts = [.openSerial "/dev/ttyUSB0".toList, .credentials (readAuth env.uni text).1 (readAuth env.uni text).2,
        .tls none none none, .connectBroker "192.0.2.1".toList 8883 60]) := by
  have hs : Simple "192.0.2.1".toList := by unfold Simple PlainWord; decide
  constructor
  · intro hn
    refine (docker_steps env glob hg files path dockerPlain "192.0.2.1".toList (by decide +kernel) hs (by decide +kernel)
      (by decide +kernel) (by decide +kernel) (by decide +kernel) (by decide)
      (fun h => absurd (hn _ (by simp)) h) (hn _ (by simp))).mono ?_
    rintro acts ⟨login, tls, p, h1, h2, h3, rfl⟩
    obtain ⟨h4, -⟩ := docker_noFiles (fun p hp => hn p (by simp at hp ⊢; rcases hp with h | h | h <;> simp [h])) h2 h3
    have hv : dockerVar dockerPlain "MQTT_USE_TLS".toList = some "0".toList := by decide +kernel
    obtain ⟨rfl, rfl⟩ := h4 (by rw [hv]; exact ⟨⟨_, rfl, by decide⟩, by decide⟩)
    rw [docker_noLogin (hn _ (by simp)) h1]
    rfl
  · intro text hn ht
    refine (docker_steps env glob hg files path dockerLogin "192.0.2.1".toList (by decide +kernel) hs (by decide +kernel)
      (by decide +kernel) (by decide +kernel) (by decide +kernel) (by decide)
      (fun _ => ⟨text, ht⟩) (hn.2 _ (by simp))).mono ?_
    rintro acts ⟨login, tls, p, h1, h2, h3, rfl⟩
    obtain ⟨-, h4⟩ := docker_noFiles (fun p hp => hn.2 p (by simp at hp ⊢; rcases hp with h | h | h <;> simp [h])) h2 h3
    have hv : dockerVar dockerLogin "MQTT_USE_TLS".toList = none := by decide +kernel
    obtain ⟨rfl, rfl⟩ := h4 (by rw [hv]; rintro ⟨⟨s, h, -⟩, -⟩; cases h)
    cases h1 with
    | file text' _ ht' =>
      rw [ht] at ht'
      cases ht'
      rfl
    | none h =>
      have : (path authPath).isSome = false := h
      rw [hn.1] at this; cases this

/-- C137: the third example uses TLS, and port 8883: there is no variable `BROKER_USE_TLS`. -/
theorem C137_hassio (env : Cbz.Env) (glob : Str → List Str) (hg : Globs glob) (files : Args.Files) (path : Str → Option PathKind)
    (hn : NoFiles path) : RunsWith (α := α) env glob dockerHassio files path fun acts =>
      acts = [.openSerial "/dev/ttyUSB0".toList, .tls none none none, .connectBroker "core-mosquitto".toList 8883 60] := by
  have hs : Simple "core-mosquitto".toList := by unfold Simple PlainWord; decide
  refine (docker_steps env glob hg files path dockerHassio "core-mosquitto".toList (by decide +kernel) hs (by decide +kernel)
    (by decide +kernel) (by decide +kernel) (by decide +kernel) (by decide)
    (fun h => absurd (hn _ (by simp)) h) (hn _ (by simp))).mono ?_
  rintro acts ⟨login, tls, p, h1, h2, h3, rfl⟩
  obtain ⟨-, h4⟩ := docker_noFiles (fun p hp => hn p (by simp at hp ⊢; rcases hp with h | h | h <;> simp [h])) h2 h3
  have hv : dockerVar dockerHassio "MQTT_USE_TLS".toList = none := by decide +kernel
  obtain ⟨rfl, rfl⟩ := h4 (by rw [hv]; rintro ⟨⟨s, h, -⟩, -⟩; cases h)
  rw [docker_noLogin (hn _ (by simp)) h1]
  rfl

/-- C137: the second example with files of any kind in `/etc/cmqttd`: the certificates are used if they are a directory,
the certificate of the client if there is also its key, and the user name and the password if there is a file of them. -/
theorem C137_files (env : Cbz.Env) (glob : Str → List Str) (hg : Globs glob) (files : Args.Files) (path : Str → Option PathKind)
    (ha : path authPath ≠ none → ∃ t, files.text authPath = some t) (hp : path projectPath = none) :
    RunsWith (α := α) env glob dockerLogin files path fun acts => ∃ login,
      (path authPath = none ∧ login = [] ∨ ∃ text, path authPath ≠ none ∧ files.text authPath = some text ∧
        login = [.credentials (readAuth env.uni text).1 (readAuth env.uni text).2]) ∧
      acts = .openSerial "/dev/ttyUSB0".toList :: login ++
        [.tls (if path certificatesPath = some .dir then some certificatesPath else none)
          (if path clientCertPath ≠ none ∧ path clientKeyPath ≠ none then some clientCertPath else none)
          (if path clientCertPath ≠ none ∧ path clientKeyPath ≠ none then some clientKeyPath else none),
        .connectBroker "192.0.2.1".toList 8883 60] := by
  have hs : Simple "192.0.2.1".toList := by unfold Simple PlainWord; decide
  refine (docker_steps env glob hg files path dockerLogin "192.0.2.1".toList (by decide +kernel) hs (by decide +kernel)
    (by decide +kernel) (by decide +kernel) (by decide +kernel) (by decide) ha hp).mono ?_
  rintro acts ⟨login, tls, p, h1, h2, h3, rfl⟩
  have hv : dockerVar dockerLogin "MQTT_USE_TLS".toList = none := by decide +kernel
  have hon : ¬ TurnsOff (ofVars (dockerVar dockerLogin) path).useTls := by
    rintro ⟨⟨s, h, -⟩, -⟩
    have h' : dockerVar dockerLogin "MQTT_USE_TLS".toList = some s := h
    rw [hv] at h'; cases h'
  have hport : p = 8883 := by
    cases h3 with
    | given h' => exact absurd rfl h'
    | plain _ h' => exact absurd h' hon
    | tls _ _ => rfl
  subst hport
  have both : ((ofVars (dockerVar dockerLogin) path).clientCert && (ofVars (dockerVar dockerLogin) path).clientKey) = true ↔
      path clientCertPath ≠ none ∧ path clientKeyPath ≠ none := by
    show ((path clientCertPath).isSome && (path clientKeyPath).isSome) = true ↔ _
    rw [Bool.and_eq_true, Option.isSome_iff_ne_none, Option.isSome_iff_ne_none]
  have dir : (ofVars (dockerVar dockerLogin) path).certificates = true ↔ path certificatesPath = some .dir := by
    show decide (path certificatesPath = some .dir) = true ↔ _
    exact decide_eq_true_iff
  have htls : tls = [.tls (if path certificatesPath = some .dir then some certificatesPath else none)
      (if path clientCertPath ≠ none ∧ path clientKeyPath ≠ none then some clientCertPath else none)
      (if path clientCertPath ≠ none ∧ path clientKeyPath ≠ none then some clientKeyPath else none)] := by
    cases h2 with
    | off h => exact absurd h hon
    | on _ ca cert key hca hcert hkey =>
      simp only [both, dir] at hca hcert hkey
      rw [hca, hcert, hkey]
  subst htls
  refine ⟨login, ?_, by simp⟩
  cases h1 with
  | file text h ht => exact .inr ⟨text, Option.isSome_iff_ne_none.1 h, ht, rfl⟩
  | none h =>
    have h' : (path authPath).isSome = false := h
    exact .inl ⟨by cases hx : path authPath <;> simp_all, rfl⟩

/-- Certificates without a key. -/
example : run (fun w => [w]) (ofVars (dockerVar dockerLogin) fun p =>
      if p = certificatesPath then some .dir else if p = clientCertPath then some .file else none) =
    some (["--broker-address", "192.0.2.1", "--timesync", "300", "--serial", "/dev/ttyUSB0", "--broker-ca",
      "/etc/cmqttd/certificates"].map String.toList) := by decide +kernel

/-- A broker at the port for TLS, with a certificate that is trusted, or one without TLS at the other port. -/
def hassioWorld (tls : Bool) : World Nat :=
  { sampleWorld with
    serial := fun _ => .ok ()
    store := [7]
    server := fun a p _ =>
      if a ≠ "core-mosquitto".toList then none
      else if tls then (if p = 8883 then some ⟨some 7, [a]⟩ else none)
      else if p = 1883 then some ⟨none, []⟩ else none }

def hassioStart (tls : Bool) : Option (List Act × Option (Int × Bool)) :=
  ((run (fun w => [w]) (ofVars (dockerVar dockerHassio) fun _ => none)).bind fun argv =>
    (Args.parse .ascii noFiles argv).toOption).map fun o =>
      ((startup (hassioWorld tls) .ascii o).1, settingsOf (startup (hassioWorld tls) .ascii o).2)

theorem hassio_tls : hassioStart true = some ([.openSerial "/dev/ttyUSB0".toList, .tls none none none,
    .connectBroker "core-mosquitto".toList 8883 60], some (300, true)) := by decide +kernel

/-- With the broker of the add-on, which has no TLS, the third example does not start. -/
theorem hassio_plain : hassioStart false = some ([.openSerial "/dev/ttyUSB0".toList, .tls none none none], none) := by
  decide +kernel

/-- C137 is false of the code and its documentation. -/
theorem C137_false : ¬ C137_claim := by
  intro hc
  obtain ⟨argv, o, h1, h2, h3⟩ := (hc .ascii (fun w => [w]) (fun w _ => rfl) noFiles (fun _ => none)).2.2 (fun _ _ => rfl)
  have ht := hassio_tls
  unfold hassioStart at ht
  rw [h1] at ht
  simp only [Option.bind_some, h2, Except.toOption, Option.map_some, Option.some.injEq, Prod.mk.injEq] at ht
  obtain ⟨ht1, ht2⟩ := ht
  cases hs : startup (hassioWorld true) .ascii o with
  | mk acts e =>
    rw [hs] at ht1 ht2
    cases e with
    | running h m =>
      have h4 := h3 _ _ _ _ hs
      simp only at ht1
      rw [ht1] at h4
      revert h4
      decide
    | ended _ => cases ht2
    | failed _ => cases ht2

/-! Each of the variables has an influence, and the last setting of one counts. -/

/-- A variable that is set again has the value that it is given last; the others keep theirs. -/
theorem C137_last (settings : List Str) (name value : Str) (h : '=' ∉ name) (n : Str) :
    dockerVar (settings ++ [name ++ '=' :: value]) n = if n = name then some value else dockerVar settings n := by
  have hd : ∀ l : Str, '=' ∉ l → (l ++ '=' :: value).dropWhile (· ≠ '=') = '=' :: value ∧
      (l ++ '=' :: value).takeWhile (· ≠ '=') = l := by
    intro l
    induction l with
    | nil => intro _; simp
    | cons c l ih =>
      intro hl
      simp only [List.mem_cons, not_or] at hl
      have hc : c ≠ '=' := fun e => hl.1 e.symm
      simpa [hc] using ih hl.2
  have hs : splitVar (name ++ '=' :: value) = some (name, value) := by
    unfold splitVar
    rw [(hd name h).1, (hd name h).2]
  unfold dockerVar
  rw [List.reverse_append, List.reverse_singleton, List.singleton_append, List.filterMap_cons, hs]
  simp only [List.lookup_cons]
  by_cases e : n = name
  · simp [e]
  · rw [beq_false_of_ne e, if_neg e]

example : dockerVar ["A=1".toList, "B=2".toList, "A=3=4".toList] "A".toList = some "3=4".toList := by decide

example : ∀ x ∈ ["MQTT_SERVER=b", "CBUS_TIMESYNC=1", "MQTT_PORT=1", "SERIAL_PORT=b", "CBUS_CLOCK=0", "MQTT_USE_TLS=0"],
    run (fun w => [w]) (ofVars (dockerVar (dockerLogin ++ [x.toList])) fun _ => none) ≠
      run (fun w => [w]) (ofVars (dockerVar dockerLogin) fun _ => none) := by decide +kernel
example : run (fun w => [w]) (ofVars (dockerVar ["MQTT_SERVER=b".toList, "CNI_ADDR=a:1".toList]) fun _ => none) =
    some (["--broker-address", "b", "--timesync", "300", "--tcp", "a:1"].map String.toList) := by decide +kernel
example : run (fun w => [w]) (ofVars (dockerVar (dockerHassio ++ ["MQTT_USE_TLS=0".toList])) fun _ => none) =
    some (["--broker-address", "core-mosquitto", "--timesync", "300", "--serial", "/dev/ttyUSB0", "--broker-disable-tls"].map
      String.toList) := by decide +kernel

end CBus.Props
