import Verif.Model.Entrypoint
import Verif.Props.Args
import Verif.Props.Main

/-! # C94, C95: the entry point of the container -/

namespace CBus.Props
open CBus CBus.Cbz CBus.Args CBus.Entry

/-! ## Words -/

theorem fieldsAux_append (acc a b : Str) (x : Char) (hx : isIfs x = true) :
    fieldsAux acc (a ++ x :: b) = fieldsAux acc a ++ fieldsAux [] b := by
  induction a generalizing acc with
  | nil =>
    simp only [List.nil_append, fieldsAux, hx, if_true]
    split <;> simp
  | cons c a ih =>
    simp only [List.cons_append, fieldsAux]
    split
    · split
      · exact ih []
      · rw [ih []]; rfl
    · exact ih _

theorem fields_append (a b : Str) (x : Char) (hx : isIfs x = true) : Entry.fields (a ++ x :: b) = Entry.fields a ++ Entry.fields b :=
  fieldsAux_append [] a b x hx

theorem fieldsAux_word (acc s : Str) (h : ∀ c ∈ s, isIfs c = false) :
    fieldsAux acc s = if acc ++ s = [] then [] else [acc ++ s] := by
  induction s generalizing acc with
  | nil => simp [fieldsAux]
  | cons c s ih =>
    simp only [fieldsAux, h c (by simp)]
    rw [if_neg (by simp), ih _ fun c hc => h c (by simp [hc])]
    simp

theorem fields_word (s : Str) (hs : s ≠ []) (h : ∀ c ∈ s, isIfs c = false) : Entry.fields s = [s] := by
  rw [Entry.fields, fieldsAux_word [] s h]
  simp [hs]

/-- File name patterns are expanded, other words are not. -/
def Globs (glob : Str → List Str) : Prop :=
  ∀ w : Str, (∀ c ∈ w, c ≠ '*' ∧ c ≠ '?' ∧ c ≠ '[' ∧ c ≠ '\\') → glob w = [w]

/-- The words that the shell makes of a value. -/
def shellWords (glob : Str → List Str) (s : Str) : List Str := (Entry.fields s).flatMap glob

/-- The words of an option that is added if a condition holds. -/
def addIf (b : Bool) (l : List Str) : List Str := if b then l else []

/-- The script as words. -/
def scriptWords (glob : Str → List Str) (e : Environ) : List Str :=
  ["--broker-address".toList] ++ shellWords glob (value e.mqttServer) ++
  (["--timesync".toList] ++ shellWords glob (orElse e.timesync "300".toList)) ++
  addIf (value e.mqttPort ≠ []) ("--broker-port".toList :: shellWords glob (value e.mqttPort)) ++
  (if value e.serialPort ≠ [] then "--serial".toList :: shellWords glob (value e.serialPort)
   else "--tcp".toList :: shellWords glob (value e.cniAddr)) ++
  addIf (orElse e.clock "1".toList ≠ "1".toList) ["--no-clock".toList] ++
  (if orElse e.useTls "1".toList = "1".toList then
    addIf e.certificates ["--broker-ca".toList, certificatesPath] ++
    addIf (e.clientCert && e.clientKey) ["--broker-client-cert".toList, clientCertPath, "--broker-client-key".toList, clientKeyPath]
   else ["--broker-disable-tls".toList]) ++
  addIf e.auth ["--broker-auth".toList, authPath] ++
  addIf e.project ["--project-file".toList, projectPath]

theorem value_given (x : Option Str) : value x ≠ [] ↔ Given x := by
  unfold value Given
  cases x with
  | none => simp
  | some s => simp

/-- C94: without a broker, or without a port for the PCI, nothing is started, whatever
else is set; with both, `cmqttd` is. -/
theorem C94_refuses (glob : Str → List Str) (e : Environ) :
    run glob e = none ↔ ¬ Given e.mqttServer ∨ ¬ Given e.serialPort ∧ ¬ Given e.cniAddr := by
  rw [← value_given, ← value_given, ← value_given]
  unfold run argsText
  by_cases h1 : value e.mqttServer = []
  · rw [if_pos h1]
    exact ⟨fun _ => .inl (by simp [h1]), fun _ => rfl⟩
  · rw [if_neg h1]
    have hp : portArgs e = none ↔ value e.serialPort = [] ∧ value e.cniAddr = [] := by
      unfold portArgs
      by_cases h2 : value e.serialPort = [] <;> by_cases h3 : value e.cniAddr = [] <;> simp [h2, h3]
    cases h4 : portArgs e with
    | none =>
      have := hp.1 h4
      exact ⟨fun _ => .inr (by simp [this]), fun _ => rfl⟩
    | some q =>
      refine ⟨fun h => (by cases h), fun h => ?_⟩
      exfalso
      rcases h with h | ⟨h2, h3⟩
      · exact h h1
      · rw [hp.2 ⟨Decidable.not_not.1 h2, Decidable.not_not.1 h3⟩] at h4
        cases h4

/-- A piece of the text and the words it adds. -/
def Piece (glob : Str → List Str) (p : Str) (q : List Str) : Prop :=
  ∀ x : Str, shellWords glob (x ++ p) = shellWords glob x ++ q

theorem Piece.nil (glob : Str → List Str) : Piece glob [] [] := fun x => by simp

theorem Piece.append {glob : Str → List Str} {p p' : Str} {q q' : List Str} (h : Piece glob p q) (h' : Piece glob p' q') :
    Piece glob (p ++ p') (q ++ q') := fun x => by
  rw [← List.append_assoc, h', h, List.append_assoc]

theorem Piece.ite {glob : Str → List Str} {p p' : Str} {q q' : List Str} (c : Prop) [Decidable c] (h : c → Piece glob p q)
    (h' : ¬ c → Piece glob p' q') : Piece glob (if c then p else p') (if c then q else q') := by
  split
  · exact h ‹_›
  · exact h' ‹_›

/-- Characters that mean nothing to the shell. -/
def plainChar (c : Char) : Bool := c != ' ' && c != '\t' && c != '\n' && c != '*' && c != '?' && c != '[' && c != '\\'

/-- A word that the shell leaves alone. -/
def PlainWord (s : Str) : Prop := s ≠ [] ∧ ∀ c ∈ s, plainChar c = true

instance (s : Str) : Decidable (PlainWord s) := by unfold PlainWord; infer_instance

theorem words_plain (glob : Str → List Str) (hg : Globs glob) (s : Str) (h : PlainWord s) : shellWords glob s = [s] := by
  unfold shellWords
  have hc : ∀ c ∈ s, isIfs c = false ∧ c ≠ '*' ∧ c ≠ '?' ∧ c ≠ '[' ∧ c ≠ '\\' := by
    intro c hc
    have := h.2 c hc
    simp only [plainChar, Bool.and_eq_true, Bool.not_eq_true', bne_iff_ne, ne_eq] at this
    obtain ⟨⟨⟨⟨⟨⟨a, a'⟩, a''⟩, b⟩, c⟩, d⟩, e⟩ := this
    exact ⟨by simp [isIfs, a, a', a''], b, c, d, e⟩
  rw [fields_word s h.1 fun c h => (hc c h).1]
  simp [hg s fun c h => (hc c h).2]

theorem Piece.word {glob : Str → List Str} (hg : Globs glob) (p n : Str) (hp : p = ' ' :: n) (h : PlainWord n) :
    Piece glob p [n] := fun x => by
  rw [hp, shellWords, fields_append x n ' ' rfl, List.flatMap_append]
  exact congrArg _ (words_plain glob hg n h)

theorem Piece.option {glob : Str → List Str} (hg : Globs glob) (p n v : Str) (hp : p = ' ' :: n ++ [' ']) (h : PlainWord n) :
    Piece glob (p ++ v) (n :: shellWords glob v) := fun x => by
  rw [hp, show x ++ (' ' :: n ++ [' '] ++ v) = x ++ ' ' :: (n ++ ' ' :: v) by simp, shellWords, fields_append x _ ' ' rfl,
    fields_append n v ' ' rfl, List.flatMap_append, List.flatMap_append]
  exact congrArg _ (congrArg (· ++ _) (words_plain glob hg n h))

theorem run_words (glob : Str → List Str) (hg : Globs glob) (e : Environ) (argv : List Str) (h : run glob e = some argv) :
    argv = scriptWords glob e := by
  unfold run argsText at h
  rw [Option.map_eq_some_iff] at h
  obtain ⟨s, hs, rfl⟩ := h
  split at hs
  · cases hs
  · split at hs
    · cases hs
    · rename_i port hport
      injection hs with hs
      have hP : Piece glob port (if value e.serialPort ≠ [] then "--serial".toList :: shellWords glob (value e.serialPort)
          else "--tcp".toList :: shellWords glob (value e.cniAddr)) := by
        unfold portArgs at hport
        split at hport
        · rename_i h1
          injection hport with hport
          rw [if_pos h1, ← hport]
          exact Piece.option hg _ _ _ (by decide) (by decide)
        · rename_i h1
          split at hport
          · injection hport with hport
            rw [if_neg h1, ← hport]
            exact Piece.option hg _ _ _ (by decide) (by decide)
          · cases hport
      have hT : Piece glob (tlsArgs e) (if orElse e.useTls "1".toList = "1".toList then
          addIf e.certificates ["--broker-ca".toList, certificatesPath] ++
          addIf (e.clientCert && e.clientKey)
            ["--broker-client-cert".toList, clientCertPath, "--broker-client-key".toList, clientKeyPath]
          else ["--broker-disable-tls".toList]) := by
        unfold tlsArgs
        refine Piece.ite _ (fun _ => ?_) (fun _ => Piece.word hg _ _ (by decide) (by decide))
        refine Piece.append ?_ ?_
        · refine Piece.ite _ (fun _ => ?_) (fun _ => Piece.nil _)
          have := Piece.option hg " --broker-ca ".toList "--broker-ca".toList certificatesPath (by decide) (by decide)
          rwa [words_plain glob hg certificatesPath (by decide)] at this
        · refine Piece.ite _ (fun _ => ?_) (fun _ => Piece.nil _)
          have h1 := Piece.option hg " --broker-client-cert ".toList "--broker-client-cert".toList clientCertPath
            (by decide) (by decide)
          have h2 := Piece.option hg " --broker-client-key ".toList "--broker-client-key".toList clientKeyPath
            (by decide) (by decide)
          rw [words_plain glob hg clientCertPath (by decide)] at h1
          rw [words_plain glob hg clientKeyPath (by decide)] at h2
          have := Piece.append h1 h2
          rw [← List.append_assoc] at this
          exact this
      have h0 : shellWords glob ("--broker-address ".toList ++ value e.mqttServer) =
          ["--broker-address".toList] ++ shellWords glob (value e.mqttServer) := by
        rw [show "--broker-address ".toList ++ value e.mqttServer = "--broker-address".toList ++ ' ' :: value e.mqttServer by
          rw [show "--broker-address ".toList = "--broker-address".toList ++ [' '] by decide]; simp]
        rw [shellWords, fields_append _ _ ' ' rfl, List.flatMap_append]
        exact congrArg (· ++ _) (words_plain glob hg _ (by decide))
      have h1 := Piece.option hg " --timesync ".toList "--timesync".toList (orElse e.timesync "300".toList) (by decide) (by decide)
      have h2 : Piece glob (if value e.mqttPort ≠ [] then " --broker-port ".toList ++ value e.mqttPort else [])
          (addIf (value e.mqttPort ≠ []) ("--broker-port".toList :: shellWords glob (value e.mqttPort))) := by
        unfold addIf
        simp only [decide_eq_true_eq]
        exact Piece.ite _ (fun _ => Piece.option hg _ _ _ (by decide) (by decide)) (fun _ => Piece.nil _)
      have h3 : Piece glob (if orElse e.clock "1".toList ≠ "1".toList then " --no-clock".toList else [])
          (addIf (orElse e.clock "1".toList ≠ "1".toList) ["--no-clock".toList]) := by
        unfold addIf
        simp only [decide_eq_true_eq]
        exact Piece.ite _ (fun _ => Piece.word hg _ _ (by decide) (by decide)) (fun _ => Piece.nil _)
      have h4 : Piece glob (if e.auth then " --broker-auth ".toList ++ authPath else [])
          (addIf e.auth ["--broker-auth".toList, authPath]) := by
        refine Piece.ite _ (fun _ => ?_) (fun _ => Piece.nil _)
        have := Piece.option hg " --broker-auth ".toList "--broker-auth".toList authPath (by decide) (by decide)
        rwa [words_plain glob hg authPath (by decide)] at this
      have h5 : Piece glob (if e.project then " --project-file ".toList ++ projectPath else [])
          (addIf e.project ["--project-file".toList, projectPath]) := by
        refine Piece.ite _ (fun _ => ?_) (fun _ => Piece.nil _)
        have := Piece.option hg " --project-file ".toList "--project-file".toList projectPath (by decide) (by decide)
        rwa [words_plain glob hg projectPath (by decide)] at this
      show shellWords glob s = scriptWords glob e
      rw [← hs, h5, h4, hT, h3, hP, h2, List.append_assoc ("--broker-address ".toList ++ value e.mqttServer), h1, h0]
      unfold scriptWords
      simp only [List.append_assoc, List.cons_append, List.nil_append]

theorem Spelled.append {a b : List Str} {is js : List Item} (h : Spelled a is) (h' : Spelled b js) : Spelled (a ++ b) (is ++ js) := by
  induction h with
  | nil => exact h'
  | cons ws more i is h hs ih =>
    rw [List.append_assoc, List.cons_append]
    exact .cons _ _ _ _ h ih

theorem Spelled.one {a : List Str} {i : Item} (h : Spells optionStrings Dest.isFlag a i) : Spelled a [i] := by
  rw [← daemon_names, ← daemon_flags] at h
  have := Spelled.cons a [] i [] h .nil
  rwa [List.append_nil] at this

/-! ## C94 -/

/-- A value that is a word for the shell and an argument for `cmqttd`. -/
def Simple (s : Str) : Prop := PlainWord s ∧ s.head? ≠ some '-'

/-- A variable that counts: set and not empty. -/
def setTo (x : Option Str) : Option Str := x.filter (· ≠ [])

theorem setTo_value (x : Option Str) : setTo x = if value x = [] then none else some (value x) := by
  unfold setTo value
  cases x with
  | none => rfl
  | some s => by_cases h : s = [] <;> simp [h, Option.filter]

theorem orElse_setTo (x : Option Str) (y : Str) : orElse x y = (setTo x).getD y := by
  unfold orElse setTo
  split
  · simp [Option.filter]
  · rename_i h
    cases x with
    | none => rfl
    | some s =>
      cases s with
      | nil => rfl
      | cons c s => exact absurd rfl (h c s)

/-- The options that the script should ask for. -/
def asked (e : Environ) : List Item :=
  [(.brokerAddress, value e.mqttServer)] ++ [(.timesync, orElse e.timesync "300".toList)] ++
  (if value e.mqttPort ≠ [] then [(.brokerPort, value e.mqttPort)] else []) ++
  (if value e.serialPort ≠ [] then [(.serial, value e.serialPort)] else [(.tcp, value e.cniAddr)]) ++
  (if orElse e.clock "1".toList ≠ "1".toList then [(.noClock, [])] else []) ++
  (if orElse e.useTls "1".toList = "1".toList then
    (if e.certificates then [(.ca, certificatesPath)] else []) ++
    (if e.clientCert && e.clientKey then [(.clientCert, clientCertPath), (.clientKey, clientKeyPath)] else [])
   else [(.disableTls, [])]) ++
  (if e.auth then [(.auth, authPath)] else []) ++
  (if e.project then [(.project, projectPath)] else [])

theorem spelled_if {a : List Str} {is : List Item} (b : Bool) (h : b = true → Spelled a is) :
    Spelled (addIf b a) (if b then is else []) := by
  cases b with
  | false => exact .nil
  | true => exact h rfl

theorem script_spelled (glob : Str → List Str) (hg : Globs glob) (e : Environ)
    (hs : ∀ x ∈ [e.mqttServer, e.timesync, e.mqttPort, e.serialPort, e.cniAddr], ∀ s, setTo x = some s → Simple s)
    (h1 : Given e.mqttServer) (h2 : Given e.serialPort ∨ Given e.cniAddr) : Spelled (scriptWords glob e) (asked e) := by
  have value' : ∀ n d x, (n, d) ∈ optionStrings → d.isFlag = false → x ∈ [e.mqttServer, e.timesync, e.mqttPort, e.serialPort, e.cniAddr] →
      value x ≠ [] → Spelled (n :: shellWords glob (value x)) [(d, value x)] := by
    intro n d x hn hd hx hv
    obtain ⟨p1, p2⟩ := hs x hx (value x) (by rw [setTo_value, if_neg hv])
    rw [words_plain glob hg _ p1]
    exact .one (.separate n d _ (.inl hn) (table.notDashes n d hn) hd p2)
  have file : ∀ n d f, (n, d) ∈ optionStrings → d.isFlag = false → f.head? ≠ some '-' → Spelled [n, f] [(d, f)] :=
    fun n d f hn hd hf => .one (.separate n d f (.inl hn) (table.notDashes n d hn) hd hf)
  have flag : ∀ n d, (n, d) ∈ optionStrings → d.isFlag = true → Spelled [n] [(d, [])] :=
    fun n d hn hd => .one (.flag n d (.inl hn) (table.notDashes n d hn) hd)
  have ts : Spelled (["--timesync".toList] ++ shellWords glob (orElse e.timesync "300".toList))
      [(.timesync, orElse e.timesync "300".toList)] := by
    by_cases h : value e.timesync = []
    · have : orElse e.timesync "300".toList = "300".toList := by rw [orElse_setTo, setTo_value, if_pos h]; rfl
      rw [this, words_plain glob hg _ (by decide)]
      exact file _ _ _ (by decide +kernel) rfl (by decide)
    · have : orElse e.timesync "300".toList = value e.timesync := by rw [orElse_setTo, setTo_value, if_neg h]; rfl
      rw [this]
      exact value' _ _ _ (by decide +kernel) rfl (by simp) h
  unfold scriptWords asked
  refine .append (.append (.append (.append (.append (.append (.append ?_ ts) ?_) ?_) ?_) ?_) ?_) ?_
  · exact value' _ _ _ (by decide +kernel) rfl (by simp) ((value_given _).2 h1)
  · have := spelled_if (decide (value e.mqttPort ≠ [])) fun h =>
      value' "--broker-port".toList .brokerPort e.mqttPort (by decide +kernel) rfl (by simp) (of_decide_eq_true h)
    simpa only [decide_eq_true_eq] using this
  · split
    · exact value' _ _ _ (by decide +kernel) rfl (by simp) ‹_›
    · rename_i h
      refine value' _ _ _ (by decide +kernel) rfl (by simp) ((value_given _).2 (h2.resolve_left fun h' => h ((value_given _).2 h')))
  · have := spelled_if (decide (orElse e.clock "1".toList ≠ "1".toList)) fun _ =>
      flag "--no-clock".toList .noClock (by decide +kernel) rfl
    simpa only [decide_eq_true_eq] using this
  · split
    · refine .append (spelled_if _ fun _ => file _ _ _ (by decide +kernel) rfl (by decide)) (spelled_if _ fun _ => ?_)
      exact .append (file "--broker-client-cert".toList .clientCert clientCertPath (by decide +kernel) rfl (by decide))
        (file "--broker-client-key".toList .clientKey clientKeyPath (by decide +kernel) rfl (by decide))
    · exact flag _ _ (by decide +kernel) rfl
  · exact spelled_if _ fun _ => file _ _ _ (by decide +kernel) rfl (by decide)
  · exact spelled_if _ fun _ => file _ _ _ (by decide +kernel) rfl (by decide)

theorem filter_ite {α} (p : α → Bool) (c : Prop) [Decidable c] (a b : List α) :
    (if c then a else b).filter p = if c then a.filter p else b.filter p := by split <;> rfl

theorem mem_ite {α} (x : α) (c : Prop) [Decidable c] (a b : List α) :
    (x ∈ if c then a else b) ↔ (c ∧ x ∈ a) ∨ (¬ c ∧ x ∈ b) := by by_cases h : c <;> simp [h]

/-- Whether a variable turns something off: it is set, not empty, and not `1`. -/
def TurnsOff (x : Option Str) : Prop := Given x ∧ x ≠ some "1".toList

theorem orElse_one (x : Option Str) : orElse x "1".toList ≠ "1".toList ↔ TurnsOff x := by
  unfold orElse TurnsOff Given
  split
  · simp
  · rename_i h
    simp only [ne_eq, not_true_eq_false, false_iff]
    rintro ⟨⟨s, rfl, hs⟩, -⟩
    cases s with
    | nil => exact hs rfl
    | cons c s => exact h c s rfl

theorem options_given (env : Env) (files : Files) (glob : Str → List Str) (hg : Globs glob) (e : Environ)
    (hs : ∀ x ∈ [e.mqttServer, e.timesync, e.mqttPort, e.serialPort, e.cniAddr], ∀ s, setTo x = some s → Simple s)
    (h1 : Given e.mqttServer) (h2 : Given e.serialPort ∨ Given e.cniAddr)
    (port timesync : Int) (hport : Number env.uni 0 (setTo e.mqttPort) port)
    (htime : Number env.uni 300 (setTo e.timesync) timesync)
    (ha : e.auth = true → ∃ t, files.text authPath = some t)
    (hp : e.project = true → ∃ f, files.binary projectPath = some f) :
    ∃ argv o, run glob e = some argv ∧ parse env files argv = .ok o ∧
      some o.brokerAddress = e.mqttServer ∧ o.brokerPort = port ∧ o.timesync = timesync ∧ o.keepalive = 60 ∧
      (Given e.serialPort → o.serial = e.serialPort ∧ o.tcp = none) ∧
      (¬ Given e.serialPort → o.serial = none ∧ o.tcp = e.cniAddr) ∧
      (o.noClock = true ↔ TurnsOff e.clock) ∧ (o.disableTls = true ↔ TurnsOff e.useTls) ∧
      (¬ TurnsOff e.useTls →
        (o.ca = if e.certificates then some certificatesPath else none) ∧
        (o.clientCert = if e.clientCert && e.clientKey then some clientCertPath else none) ∧
        (o.clientKey = if e.clientCert && e.clientKey then some clientKeyPath else none)) ∧
      (o.auth = if e.auth then files.text authPath else none) ∧
      ((o.project.isSome = true ↔ e.project = true) ∧ ∀ f, o.project = some f → files.binary projectPath = some f) := by
  cases hr : run glob e with
  | none =>
    rcases (C94_refuses glob e).1 hr with h | ⟨h3, h4⟩
    · exact absurd h1 h
    · exact absurd h2 (by simp [h3, h4])
  | some argv =>
    have hw := run_words glob hg e argv hr
    have hsp := script_spelled glob hg e hs h1 h2
    rw [← hw] at hsp
    let o : Daemon.Options := {
      brokerAddress := value e.mqttServer, brokerPort := port, timesync := timesync
      serial := setTo e.serialPort
      tcp := if value e.serialPort ≠ [] then none else setTo e.cniAddr
      noClock := decide (orElse e.clock "1".toList ≠ "1".toList)
      disableTls := decide (orElse e.useTls "1".toList ≠ "1".toList)
      ca := if orElse e.useTls "1".toList = "1".toList then (if e.certificates then some certificatesPath else none) else none
      clientCert := if orElse e.useTls "1".toList = "1".toList then
        (if e.clientCert && e.clientKey then some clientCertPath else none) else none
      clientKey := if orElse e.useTls "1".toList = "1".toList then
        (if e.clientCert && e.clientKey then some clientKeyPath else none) else none
      auth := if e.auth then files.text authPath else none
      project := if e.project then files.binary projectPath else none }
    have htime' : ∃ i, env.uni.intOf (orElse e.timesync "300".toList) = .ok i ∧ i = timesync := by
      rw [orElse_setTo]
      rcases htime with ⟨h3, h4⟩ | ⟨s, h3, h4⟩
      · rw [h3]
        exact ⟨300, UniTable.intOf_intStr env.uni 300, h4.symm⟩
      · rw [h3]
        exact ⟨_, h4, rfl⟩
    obtain ⟨_, htime', rfl⟩ := htime'
    have hport' : value e.mqttPort ≠ [] → env.uni.intOf (value e.mqttPort) = .ok port := by
      intro h
      rw [setTo_value, if_neg h] at hport
      rcases hport with ⟨h3, -⟩ | ⟨s, h3, h4⟩
      · cases h3
      · injection h3 with h3
        rw [h3, h4]
    have hv : Valid env files (asked e) := by
      constructor <;> simp only [asked, List.mem_append, mem_ite, List.mem_cons, List.not_mem_nil, Prod.mk.injEq, reduceCtorEq,
        false_and, and_false, or_false, false_or, true_and, not_false_eq_true, implies_true, false_implies]
      case port =>
        rintro v ⟨h, rfl⟩
        exact ⟨port, hport' h⟩
      case timesync =>
        rintro v rfl
        exact ⟨_, htime'⟩
      case auth =>
        rintro v ⟨h, rfl⟩
        exact ha h
      case project =>
        rintro v ⟨h, rfl⟩
        exact hp h
      case onePort =>
        rintro v w ⟨⟨h, -⟩, h', -⟩
        exact h' h
    have hm : Means env files (asked e) o := by
      constructor <;> try simp only [lastOf, asked, List.filter_append, filter_ite, List.filter_cons, List.filter_nil, decide_false,
        decide_true, reduceCtorEq, Bool.false_eq_true, if_true, if_false, ite_self, List.nil_append, List.append_nil]
      case address => rfl
      case port =>
        by_cases h : value e.mqttPort = []
        · rw [setTo_value, if_pos h] at hport
          rcases hport with ⟨-, h3⟩ | ⟨s, h3, -⟩
          · exact .inl ⟨by simp [h], h3⟩
          · cases h3
        · exact .inr ⟨_, by simp [h], hport' h⟩
      case keepalive => exact .inl ⟨rfl, rfl⟩
      case timesync => exact .inr ⟨_, rfl, htime'⟩
      case auth => show (if e.auth then _ else _) = _; cases e.auth <;> rfl
      case project => show (if e.project then _ else _) = _; cases e.project <;> rfl
      case ca =>
        show (if orElse e.useTls "1".toList = "1".toList then (if e.certificates then some certificatesPath else none) else none) = _
        cases e.certificates <;> split <;> rfl
      case clientCert =>
        show (if orElse e.useTls "1".toList = "1".toList then
          (if e.clientCert && e.clientKey then some clientCertPath else none) else none) = _
        cases e.clientCert && e.clientKey <;> split <;> rfl
      case clientKey =>
        show (if orElse e.useTls "1".toList = "1".toList then
          (if e.clientCert && e.clientKey then some clientKeyPath else none) else none) = _
        cases e.clientCert && e.clientKey <;> split <;> rfl
      case serial =>
        show setTo e.serialPort = _
        rw [setTo_value]
        by_cases h : value e.serialPort = [] <;> simp [h]
      case tcp =>
        show (if value e.serialPort ≠ [] then none else setTo e.cniAddr) = _
        by_cases h : value e.serialPort = []
        · have h3 := (value_given _).2 (h2.resolve_left fun h' => (value_given _).2 h' h)
          simp [h, setTo_value, h3]
        · simp [h]
      case disableTls =>
        show decide (orElse e.useTls "1".toList ≠ "1".toList) = _
        by_cases h : orElse e.useTls "1".toList = "1".toList
        · rw [if_pos h, decide_eq_false (fun hn => hn h)]; simp
        · rw [if_neg h, decide_eq_true h]; rfl
      case noClock =>
        show decide (orElse e.clock "1".toList ≠ "1".toList) = _
        by_cases h : orElse e.clock "1".toList = "1".toList
        · rw [if_neg (fun hn => hn h), decide_eq_false (fun hn => hn h)]; simp
        · rw [if_pos h, decide_eq_true h]; rfl
      case onePort =>
        show ((setTo e.serialPort).isSome ∧ (if value e.serialPort ≠ [] then none else setTo e.cniAddr) = none) ∨
          (setTo e.serialPort = none ∧ (if value e.serialPort ≠ [] then none else setTo e.cniAddr).isSome)
        by_cases h : value e.serialPort = []
        · have h3 := (value_given _).2 (h2.resolve_left fun h' => (value_given _).2 h' h)
          simp [setTo_value, h, h3]
        · simp [setTo_value, h]
    have given_value : ∀ x : Option Str, Given x → some (value x) = x := by
      rintro x ⟨s, rfl, -⟩
      rfl
    refine ⟨argv, o, rfl, (C93_spelled env files argv _ hsp o).2 ⟨hv, hm⟩, given_value _ h1, rfl, rfl, rfl, ?_, ?_, ?_, ?_, ?_, rfl, ?_, ?_⟩
    · intro h
      have hne := (value_given _).2 h
      refine ⟨?_, if_pos hne⟩
      show setTo e.serialPort = _
      rw [setTo_value, if_neg hne, given_value _ h]
    · intro h
      have hne : value e.serialPort = [] := Decidable.not_not.1 fun h' => h ((value_given _).1 h')
      have hc := h2.resolve_left h
      refine ⟨?_, ?_⟩
      · show setTo e.serialPort = _
        rw [setTo_value, if_pos hne]
      · show (if value e.serialPort ≠ [] then none else setTo e.cniAddr) = _
        rw [if_neg (by simp [hne]), setTo_value, if_neg ((value_given _).2 hc), given_value _ hc]
    · show decide (orElse e.clock "1".toList ≠ "1".toList) = true ↔ _
      rw [decide_eq_true_eq]
      exact orElse_one _
    · show decide (orElse e.useTls "1".toList ≠ "1".toList) = true ↔ _
      rw [decide_eq_true_eq]
      exact orElse_one _
    · intro h
      have h3 : orElse e.useTls "1".toList = "1".toList := Decidable.not_not.1 fun h' => h ((orElse_one _).1 h')
      exact ⟨if_pos h3, if_pos h3, if_pos h3⟩
    · show (if e.project then files.binary projectPath else none).isSome = true ↔ _
      cases hb : e.project with
      | false => simp
      | true =>
        obtain ⟨f, hf⟩ := hp hb
        simp [hf]
    · intro f hf
      have hf' : (if e.project then files.binary projectPath else none) = some f := hf
      split at hf'
      · exact hf'
      · cases hf'

/-- C94: with values that are plain words, numbers where they should be, and files
that can be opened, `cmqttd` gets the options that the documentation of the variables
promises. -/
theorem C94_options (env : Env) (files : Files) (glob : Str → List Str) (hg : Globs glob) (e : Environ)
    (hs : ∀ x ∈ [e.mqttServer, e.timesync, e.mqttPort, e.serialPort, e.cniAddr], ∀ s, setTo x = some s → Simple s)
    (h1 : Given e.mqttServer) (h2 : Given e.serialPort ∨ Given e.cniAddr)
    (port timesync : Int) (hport : Number env.uni 0 (setTo e.mqttPort) port)
    (htime : Number env.uni 300 (setTo e.timesync) timesync)
    (ha : e.auth = true → ∃ t, files.text "/etc/cmqttd/auth".toList = some t)
    (hp : e.project = true → ∃ f, files.binary "/etc/cmqttd/project.cbz".toList = some f) :
    ∃ argv o, run glob e = some argv ∧ parse env files argv = .ok o ∧
      some o.brokerAddress = e.mqttServer ∧ o.brokerPort = port ∧ o.timesync = timesync ∧ o.keepalive = 60 ∧
      (Given e.serialPort → o.serial = e.serialPort ∧ o.tcp = none) ∧
      (¬ Given e.serialPort → o.serial = none ∧ o.tcp = e.cniAddr) ∧
      (o.noClock = true ↔ TurnsOff e.clock) ∧ (o.disableTls = true ↔ TurnsOff e.useTls) ∧
      (¬ TurnsOff e.useTls →
        (o.ca = if e.certificates then some "/etc/cmqttd/certificates".toList else none) ∧
        (o.clientCert = if e.clientCert && e.clientKey then some "/etc/cmqttd/client.pem".toList else none) ∧
        (o.clientKey = if e.clientCert && e.clientKey then some "/etc/cmqttd/client.key".toList else none)) ∧
      (o.auth = if e.auth then files.text "/etc/cmqttd/auth".toList else none) ∧
      ((o.project.isSome = true ↔ e.project = true) ∧ ∀ f, o.project = some f → files.binary "/etc/cmqttd/project.cbz".toList = some f) :=
  options_given env files glob hg e hs h1 h2 port timesync hport htime ha hp

/-! A container with a serial port, and one without TLS. -/

example : run (fun w => [w]) { mqttServer := some "mqtt".toList, serialPort := some "/dev/ttyUSB0".toList, certificates := true } =
    some ["--broker-address".toList, "mqtt".toList, "--timesync".toList, "300".toList, "--serial".toList, "/dev/ttyUSB0".toList,
      "--broker-ca".toList, "/etc/cmqttd/certificates".toList] := by decide +kernel
example : run (fun w => [w]) {
    mqttServer := some "mqtt".toList, cniAddr := some "192.0.2.1:10001".toList, useTls := some "0".toList, clock := some "0".toList
    timesync := some [], mqttPort := some "99".toList, certificates := true, auth := true } =
    some ["--broker-address".toList, "mqtt".toList, "--timesync".toList, "300".toList, "--broker-port".toList, "99".toList,
      "--tcp".toList, "192.0.2.1:10001".toList, "--no-clock".toList, "--broker-disable-tls".toList, "--broker-auth".toList,
      "/etc/cmqttd/auth".toList] := by decide +kernel
example : Simple "192.0.2.1:10001".toList := ⟨by decide, by decide⟩

/-! ## C95 -/

/-- C95: TLS is disabled iff `MQTT_USE_TLS` says so. -/
def C95_claim : Prop :=
  ∀ (env : Env) (files : Files) (glob : Str → List Str) (e : Environ) (argv : List Str) (o : Daemon.Options), Globs glob →
    run glob e = some argv → parse env files argv = .ok o → (o.disableTls = true ↔ TurnsOff e.useTls)

/-- C95 is false: other values may contain options, too. -/
theorem C95_false : ¬ C95_claim := by
  intro h
  have key : ∃ o, parse .ascii noFiles ["--broker-address".toList, "mqtt".toList, "--broker-disable-tls".toList, "--timesync".toList,
      "300".toList, "--serial".toList, "/dev/ttyUSB0".toList] = .ok o ∧ o.disableTls = true := by
    have e : (parse .ascii noFiles ["--broker-address".toList, "mqtt".toList, "--broker-disable-tls".toList, "--timesync".toList,
      "300".toList, "--serial".toList, "/dev/ttyUSB0".toList]).toOption.map (·.disableTls) = some true := by decide +kernel
    cases hp : parse .ascii noFiles ["--broker-address".toList, "mqtt".toList, "--broker-disable-tls".toList, "--timesync".toList,
        "300".toList, "--serial".toList, "/dev/ttyUSB0".toList] with
    | error x => rw [hp] at e; cases e
    | ok o =>
      rw [hp] at e
      exact ⟨o, rfl, by simpa [Except.toOption] using e⟩
  obtain ⟨o, h1, h2⟩ := key
  have := (h .ascii noFiles (fun w => [w]) {
    mqttServer := some "mqtt --broker-disable-tls".toList, serialPort := some "/dev/ttyUSB0".toList, useTls := some "1".toList }
    _ o (fun _ _ => rfl) (by decide +kernel) h1).1 h2
  exact this.2 rfl

/-- A blank. -/
def ShellBlank (c : Char) : Prop := c ∈ [' ', '\t', '\n']

/-- How the shell divides an expansion into words: at blanks and only there. -/
inductive SplitsTo : Str → List Str → Prop
  | nil : SplitsTo [] []
  | blank (c : Char) (s : Str) (ws : List Str) (hc : ShellBlank c) (h : SplitsTo s ws) : SplitsTo (c :: s) ws
  | word (w s : Str) (ws : List Str) (hw : w ≠ [] ∧ ∀ c ∈ w, ¬ ShellBlank c) (hs : ∀ c, s.head? = some c → ShellBlank c)
      (h : SplitsTo s ws) : SplitsTo (w ++ s) (w :: ws)

theorem isIfs_iff (c : Char) : isIfs c = true ↔ ShellBlank c := by
  simp [isIfs, ShellBlank, or_assoc]

theorem fieldsAux_acc (acc s : Str) (ha : acc ≠ []) (hb : ∀ c ∈ acc, ¬ ShellBlank c) :
    ∃ w r, s = w ++ r ∧ (∀ c ∈ w, ¬ ShellBlank c) ∧ (∀ c, r.head? = some c → ShellBlank c) ∧
      fieldsAux acc s = (acc ++ w) :: fieldsAux [] r := by
  induction s generalizing acc with
  | nil => exact ⟨[], [], rfl, by simp, by simp, by simp [fieldsAux, ha]⟩
  | cons c s ih =>
    by_cases hc : ShellBlank c
    · refine ⟨[], c :: s, rfl, by simp, fun x hx => ?_, ?_⟩
      · simp only [List.head?_cons, Option.some.injEq] at hx
        exact hx ▸ hc
      · simp only [fieldsAux, (isIfs_iff c).2 hc, if_true, ha, if_false, List.append_nil]
    · obtain ⟨w, r, h1, h2, h3, h4⟩ := ih (acc ++ [c]) (by simp) (by
        intro x hx
        rcases List.mem_append.1 hx with hx | hx
        · exact hb x hx
        · rw [List.mem_singleton.1 hx]; exact hc)
      refine ⟨c :: w, r, by rw [h1]; rfl, ?_, h3, ?_⟩
      · intro x hx
        rcases List.mem_cons.1 hx with rfl | hx
        · exact hc
        · exact h2 x hx
      · have : isIfs c = false := by
          cases hi : isIfs c with
          | false => rfl
          | true => exact absurd ((isIfs_iff c).1 hi) hc
        rw [fieldsAux, this, if_neg (by simp), h4, List.append_assoc]
        rfl

/-- The words of C95 are those that the shell makes of a value. -/
theorem C95_words (s : Str) (ws : List Str) : SplitsTo s ws ↔ Entry.fields s = ws := by
  have sound : ∀ {s : Str} {ws : List Str}, SplitsTo s ws → Entry.fields s = ws := by
    intro s ws h
    induction h with
    | nil => rfl
    | blank c s ws hc h ih => rw [← ih]; simp only [Entry.fields, fieldsAux, (isIfs_iff c).2 hc, if_true]
    | word w s ws hw hs h ih =>
      have hi : ∀ c ∈ w, isIfs c = false := fun c hc => by
        cases hi : isIfs c with
        | false => rfl
        | true => exact absurd ((isIfs_iff c).1 hi) (hw.2 c hc)
      cases s with
      | nil =>
        rw [List.append_nil, fields_word w hw.1 hi, ← ih]
        rfl
      | cons c s =>
        have hc := (isIfs_iff c).2 (hs c rfl)
        rw [fields_append w s c hc, fields_word w hw.1 hi, ← ih, show Entry.fields (c :: s) = Entry.fields s from by
          simp only [Entry.fields, fieldsAux, hc, if_true]]
        rfl
  refine ⟨sound, ?_⟩
  rintro rfl
  have all : ∀ n (s : Str), s.length ≤ n → SplitsTo s (Entry.fields s) := by
    intro n
    induction n with
    | zero =>
      intro s hs
      rw [List.length_eq_zero_iff.1 (Nat.le_zero.1 hs)]
      exact .nil
    | succ n ih =>
      intro s hs
      cases s with
      | nil => exact .nil
      | cons c s =>
        simp only [List.length_cons] at hs
        by_cases hc : ShellBlank c
        · have : Entry.fields (c :: s) = Entry.fields s := by
            simp only [Entry.fields, fieldsAux, (isIfs_iff c).2 hc, if_true]
          rw [this]
          exact .blank c s _ hc (ih s (by omega))
        · have hi : isIfs c = false := by
            cases hi : isIfs c with
            | false => rfl
            | true => exact absurd ((isIfs_iff c).1 hi) hc
          obtain ⟨w, r, h1, h2, h3, h4⟩ := fieldsAux_acc [c] s (by simp) (by simpa using hc)
          have : Entry.fields (c :: s) = ([c] ++ w) :: Entry.fields r := by
            rw [Entry.fields, fieldsAux, hi, if_neg (by simp), List.nil_append, h4]
            rfl
          rw [this, h1, show c :: (w ++ r) = ([c] ++ w) ++ r from rfl]
          refine .word _ _ _ ⟨by simp, ?_⟩ h3 (ih r ?_)
          · intro x hx
            rcases List.mem_append.1 hx with hx | hx
            · rw [List.mem_singleton.1 hx]; exact hc
            · exact h2 x hx
          · have := congrArg List.length h1
            rw [List.length_append] at this
            omega
  exact all s.length s (Nat.le_refl _)

example : SplitsTo " a\tb\n\n".toList ["a".toList, "b".toList] := (C95_words _ _).2 (by decide +kernel)

/-- No word disables TLS. -/
def Clean (l : List Str) : Prop := ∀ w ∈ l, ¬ "--broker-d".toList <+: w

theorem Clean.append {a b : List Str} (h : Clean a) (h' : Clean b) : Clean (a ++ b) := by
  intro w hw
  rcases List.mem_append.1 hw with hw | hw
  · exact h w hw
  · exact h' w hw

theorem Clean.addIf {a : List Str} (c : Bool) (h : Clean a) : Clean (addIf c a) := by
  cases c with
  | false => intro w hw; cases hw
  | true => exact h

theorem Clean.cons {a : List Str} (n : Str) (hn : "--broker-d".toList.isPrefixOf n = false) (h : Clean a) : Clean (n :: a) := by
  intro w hw
  rcases List.mem_cons.1 hw with rfl | hw
  · intro hp
    rw [List.isPrefixOf_iff_prefix.2 hp] at hn
    cases hn
  · exact h w hw

theorem Clean.nil : Clean [] := fun _ hw => by cases hw

/-- C95, the part that holds: for all values in which no word begins with
`--broker-d`. Missing: values with such words, for which it is false. -/
theorem C95_tls_partial (env : Env) (files : Files) (glob : Str → List Str) (hg : Globs glob) (e : Environ) (argv : List Str)
    (o : Daemon.Options) (hr : run glob e = some argv) (hp : parse env files argv = .ok o)
    (hw : ∀ x ∈ [e.mqttServer, e.timesync, e.mqttPort, e.serialPort, e.cniAddr], ∀ w ∈ shellWords glob (value x),
      ¬ "--broker-d".toList <+: w) : o.disableTls = true ↔ TurnsOff e.useTls := by
  rw [C93_tls env files argv o hp, run_words glob hg e argv hr, ← orElse_one]
  have value' : ∀ n x, "--broker-d".toList.isPrefixOf n = false → x ∈ [e.mqttServer, e.timesync, e.mqttPort, e.serialPort, e.cniAddr] →
      Clean (n :: shellWords glob (value x)) := fun n x hn hx => .cons n hn (hw x hx)
  have clean : orElse e.useTls "1".toList = "1".toList → Clean (scriptWords glob e) := by
    intro ht
    unfold scriptWords
    rw [if_pos ht]
    refine .append (.append (.append (.append (.append (.append (.append ?_ ?_) ?_) ?_) ?_) ?_) ?_) ?_
    · exact value' _ _ (by decide) (by simp)
    · rw [orElse_setTo, setTo_value]
      split
      · refine .cons _ (by decide) ?_
        rw [Option.getD_none, words_plain glob hg _ (by decide)]
        exact .cons _ (by decide) .nil
      · exact value' _ _ (by decide) (by simp)
    · exact .addIf _ (value' _ _ (by decide) (by simp))
    · split
      · exact value' _ _ (by decide) (by simp)
      · exact value' _ _ (by decide) (by simp)
    · exact .addIf _ (.cons _ (by decide) .nil)
    · refine .append (.addIf _ (.cons _ (by decide) (.cons _ (by decide) .nil))) (.addIf _ ?_)
      exact .cons _ (by decide) (.cons _ (by decide) (.cons _ (by decide) (.cons _ (by decide) .nil)))
    · exact .addIf _ (.cons _ (by decide) (.cons _ (by decide) .nil))
    · exact .addIf _ (.cons _ (by decide) (.cons _ (by decide) .nil))
  constructor
  · rintro ⟨w, hm, h1, h2⟩
    intro ht
    refine absurd h1 (clean ht w hm)
  · intro ht
    refine ⟨"--broker-disable-tls".toList, ?_, by decide, by decide⟩
    unfold scriptWords
    rw [if_neg ht]
    refine List.mem_append_left _ (List.mem_append_left _ (List.mem_append_right _ ?_))
    exact List.mem_singleton.2 rfl

end CBus.Props
