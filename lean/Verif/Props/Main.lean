import Verif.Model.Main
import Verif.Props.CbzFile

/-! # C82, C83, C87: starting the daemon -/

namespace CBus.Props
open CBus CBus.Cbz CBus.Daemon CBus.Spec

/-! ## C82 -/

/-- An option is given and not empty. -/
def Given (x : Option Str) : Prop := ∃ s, x = some s ∧ s ≠ []

theorem truthy_iff (x : Option Str) : truthy x = true ↔ Given x := by
  unfold truthy Given
  split
  · simp
  · rename_i h
    constructor
    · intro h; cases h
    · rintro ⟨s, rfl, hs⟩
      cases s with
      | nil => exact absurd rfl hs
      | cons c s => exact absurd rfl (h c s)

theorem ifTrue_iff (x : Option Str) (s : Str) : ifTrue x = some s ↔ x = some s ∧ s ≠ [] := by
  unfold ifTrue
  split
  · rename_i h
    obtain ⟨t, rfl, ht⟩ := (truthy_iff x).1 h
    constructor
    · intro h; injection h with h; exact ⟨by rw [h], h ▸ ht⟩
    · exact fun h => h.1
  · rename_i h
    constructor
    · intro h; cases h
    · rintro ⟨rfl, hs⟩
      exact absurd ((truthy_iff _).2 ⟨s, rfl, hs⟩) h

/-- C82: with only one of the client certificate and its key, nothing is connected. -/
theorem C82_refused (env : Env) (o : Daemon.Options) (h : ¬ (Given o.clientCert ↔ Given o.clientKey)) :
    main env o = ([], .usage) := by
  unfold main
  rw [if_pos]
  intro e
  rw [← truthy_iff, ← truthy_iff, e] at h
  exact h Iff.rfl

theorem main_cases (env : Env) (o : Daemon.Options) :
    ((main env o).1 = [] ∧ ∀ h, (main env o).2 ≠ .running h) ∨
    ∃ act labels, connectPci env o = .ok act ∧ (Given o.clientCert ↔ Given o.clientKey) ∧
      (o.project = none ∧ labels = [] ∨ ∃ f, o.project = some f ∧ readCbzLabels env f = some (.ok labels)) ∧
      main env o = (act :: connectBroker env o, .running ⟨o.timesync, !o.noClock, labels⟩) := by
  unfold main
  split
  · exact .inl ⟨rfl, fun h => by simp⟩
  · rename_i hc
    have hg : Given o.clientCert ↔ Given o.clientKey := by
      rw [← truthy_iff, ← truthy_iff]
      simp only [ne_eq, Decidable.not_not] at hc
      rw [hc]
    have key : ∀ labels, (o.project = none ∧ labels = [] ∨ ∃ f, o.project = some f ∧
        readCbzLabels env f = some (.ok labels)) →
        ((match connectPci env o with
          | .error e => ([], End.raised e)
          | .ok act => (act :: connectBroker env o, .running ⟨o.timesync, !o.noClock, labels⟩)).1 = [] ∧
          ∀ h, (match connectPci env o with
          | .error e => ([], End.raised e)
          | .ok act => (act :: connectBroker env o, .running ⟨o.timesync, !o.noClock, labels⟩)).2 ≠ .running h) ∨
        ∃ act labels', connectPci env o = .ok act ∧ (Given o.clientCert ↔ Given o.clientKey) ∧
          (o.project = none ∧ labels' = [] ∨ ∃ f, o.project = some f ∧ readCbzLabels env f = some (.ok labels')) ∧
          (match connectPci env o with
          | .error e => ([], End.raised e)
          | .ok act => (act :: connectBroker env o, .running ⟨o.timesync, !o.noClock, labels⟩))
            = (act :: connectBroker env o, .running ⟨o.timesync, !o.noClock, labels'⟩) := by
      intro labels hl
      cases hp : connectPci env o with
      | error e => exact .inl ⟨rfl, fun h => by simp⟩
      | ok act => exact .inr ⟨act, labels, rfl, hg, hl, rfl⟩
    simp only
    cases h : o.project with
    | none => rw [h] at key; exact key [] (.inl ⟨rfl, rfl⟩)
    | some f =>
      rw [h] at key
      simp only
      split
      · exact .inl ⟨rfl, fun h => by simp⟩
      · exact .inl ⟨rfl, fun h => by simp⟩
      · rename_i labels hr
        exact key labels (.inr ⟨f, rfl, hr⟩)

/-- The port of the broker that is asked for. -/
def BrokerPort (o : Daemon.Options) (p : Int) : Prop :=
  (o.brokerPort ≠ 0 ∧ p = o.brokerPort) ∨
  (o.brokerPort = 0 ∧ ((o.disableTls = true ∧ p = 1883) ∨ (o.disableTls = false ∧ p = 8883)))

/-- C82: whenever the daemon connects to the broker, that is the last thing it does; it
goes to the given address and port; TLS was set up before iff it was not disabled,
with a client certificate iff one was given; and user name and password are those of
the file. -/
theorem C82_broker (env : Env) (o : Daemon.Options) (a : Str) (p k : Int) (h : .connectBroker a p k ∈ (main env o).1) :
    ∃ before, (main env o).1 = before ++ [.connectBroker a p k] ∧ (∀ a' p' k', .connectBroker a' p' k' ∉ before) ∧
      a = o.brokerAddress ∧ k = o.keepalive ∧ BrokerPort o p ∧
      ((∃ ca cert key, .tls ca cert key ∈ before) ↔ o.disableTls = false) ∧
      (∀ ca cert key, .tls ca cert key ∈ before →
        (∀ s, ca = some s ↔ o.ca = some s ∧ s ≠ []) ∧
        (∀ s, cert = some s ↔ o.clientCert = some s ∧ s ≠ []) ∧
        (∀ s, key = some s ↔ o.clientKey = some s ∧ s ≠ [])) ∧
      (∀ user pass, .credentials user pass ∈ before ↔
        ∃ text, o.auth = some text ∧ (user, pass) = readAuth env.uni text) := by
  rcases main_cases env o with ⟨h1, -⟩ | ⟨act, labels, hp, hg, -, hm⟩
  · rw [h1] at h; cases h
  · rw [hm] at h ⊢
    have hact : (∀ a p k, act ≠ .connectBroker a p k) ∧ (∀ x y z, act ≠ .tls x y z) ∧
        ∀ x y, act ≠ .credentials x y := by
      unfold connectPci at hp
      split at hp
      · injection hp with hp; subst hp; simp
      · split at hp
        · split at hp
          · split at hp
            · injection hp with hp; subst hp; simp
            · cases hp
          · cases hp
        · cases hp
    have hkey : ∀ s, (if truthy o.clientCert then o.clientKey else none) = some s ↔ o.clientKey = some s ∧ s ≠ [] := by
      intro s
      split
      · rename_i ht
        obtain ⟨s', e, hs'⟩ := hg.1 ((truthy_iff _).1 ht)
        rw [e]
        constructor
        · intro h; injection h with h; exact ⟨by rw [h], h ▸ hs'⟩
        · exact fun h => h.1
      · rename_i ht
        constructor
        · intro h; cases h
        · rintro ⟨h1, h2⟩
          exact absurd ((truthy_iff _).2 (hg.2 ⟨s, h1, h2⟩)) ht
    simp only at h ⊢
    have hport : ∀ d, BrokerPort o (orInt o.brokerPort d) ↔
        (o.brokerPort = 0 → ((o.disableTls = true ∧ d = 1883) ∨ (o.disableTls = false ∧ d = 8883))) := by
      intro d
      unfold BrokerPort orInt
      by_cases hz : o.brokerPort = 0
      · simp [hz]
      · simp [hz]
    -- the credentials
    have hcred : ∀ l : List Act, l = (match o.auth with
        | some text => [.credentials (readAuth env.uni text).1 (readAuth env.uni text).2]
        | none => []) →
        (∀ a p k, .connectBroker a p k ∉ l) ∧ (∀ x y z, .tls x y z ∉ l) ∧
        ∀ user pass, .credentials user pass ∈ l ↔ ∃ text, o.auth = some text ∧ (user, pass) = readAuth env.uni text := by
      intro l e
      subst e
      cases o.auth with
      | none => simp
      | some text =>
        refine ⟨by simp, by simp, ?_⟩
        intro user pass
        simp only [List.mem_singleton, Act.credentials.injEq, Option.some.injEq, exists_eq_left', Prod.ext_iff]
    obtain ⟨l, hl⟩ : ∃ l : List Act, l = match o.auth with
        | some text => [Act.credentials (readAuth env.uni text).1 (readAuth env.uni text).2]
        | none => [] := ⟨_, rfl⟩
    have hcb : Daemon.connectBroker env o = l ++
        (if o.disableTls then [.connectBroker o.brokerAddress (orInt o.brokerPort 1883) o.keepalive]
         else
          [.tls (ifTrue o.ca) (ifTrue o.clientCert) (if truthy o.clientCert then o.clientKey else none),
            .connectBroker o.brokerAddress (orInt o.brokerPort 8883) o.keepalive]) := by
      rw [hl]; rfl
    rw [hcb] at h ⊢
    obtain ⟨c1, c2, c3⟩ := hcred l hl
    cases hd : o.disableTls with
    | true =>
      rw [hd] at h
      simp only [if_true, List.mem_cons, List.mem_append, List.not_mem_nil, or_false] at h
      have e : Act.connectBroker a p k = .connectBroker o.brokerAddress (orInt o.brokerPort 1883) o.keepalive := by
        rcases h with h | h | h
        · exact absurd h.symm (hact.1 a p k)
        · exact absurd h (c1 a p k)
        · exact h
      injection e with e1 e2 e3
      subst e1 e2 e3
      refine ⟨act :: l, by simp, ?_, rfl, rfl, ?_, ?_, ?_, ?_⟩
      · intro a' p' k' hm
        rcases List.mem_cons.1 hm with h | h
        · exact hact.1 _ _ _ h.symm
        · exact c1 _ _ _ h
      · rw [hport]; intro _; left; exact ⟨hd, rfl⟩
      · simp only [reduceCtorEq, iff_false, not_exists]
        intro x y z hm
        rcases List.mem_cons.1 hm with h | h
        · exact hact.2.1 _ _ _ h.symm
        · exact c2 _ _ _ h
      · intro x y z hm
        rcases List.mem_cons.1 hm with h | h
        · exact absurd h.symm (hact.2.1 _ _ _)
        · exact absurd h (c2 _ _ _)
      · intro user pass
        rw [← c3, List.mem_cons]
        constructor
        · rintro (h | h)
          · exact absurd h.symm (hact.2.2 _ _)
          · exact h
        · exact .inr
    | false =>
      rw [hd] at h
      simp only [Bool.false_eq_true, if_false, List.mem_cons, List.mem_append, List.not_mem_nil, or_false,
        reduceCtorEq, false_or] at h
      have e : Act.connectBroker a p k = .connectBroker o.brokerAddress (orInt o.brokerPort 8883) o.keepalive := by
        rcases h with h | h | h
        · exact absurd h.symm (hact.1 a p k)
        · exact absurd h (c1 a p k)
        · exact h
      injection e with e1 e2 e3
      subst e1 e2 e3
      refine ⟨act :: (l ++ [.tls (ifTrue o.ca) (ifTrue o.clientCert)
        (if truthy o.clientCert then o.clientKey else none)]), by simp, ?_, rfl, rfl, ?_, ?_, ?_, ?_⟩
      · intro a' p' k' hm
        rcases List.mem_cons.1 hm with h | h
        · exact hact.1 _ _ _ h.symm
        · rcases List.mem_append.1 h with h | h
          · exact c1 _ _ _ h
          · simp at h
      · rw [hport]; intro _; right; exact ⟨hd, rfl⟩
      · simp only [iff_true]
        exact ⟨_, _, _, List.mem_cons_of_mem _ (List.mem_append_right _ (List.mem_singleton_self _))⟩
      · intro x y z hm
        rcases List.mem_cons.1 hm with h | h
        · exact absurd h.symm (hact.2.1 _ _ _)
        · rcases List.mem_append.1 h with h | h
          · exact absurd h (c2 _ _ _)
          · rw [List.mem_singleton] at h
            injection h with h1 h2 h3
            subst h1 h2 h3
            exact ⟨ifTrue_iff _, ifTrue_iff _, hkey⟩
      · intro user pass
        rw [← c3, List.mem_cons, List.mem_append]
        constructor
        · rintro (h | h | h)
          · exact absurd h.symm (hact.2.2 _ _)
          · exact h
          · simp at h
        · exact fun h => .inr (.inl h)

/-- C82: when the daemon runs it has connected to the PCI first, then to the broker, and
follows the options about the clock and the project file. -/
theorem C82_running (env : Env) (o : Daemon.Options) (acts : List Act) (h : Handler) (hm : main env o = (acts, .running h)) :
    (∃ act p rest, connectPci env o = .ok act ∧
      acts = act :: rest ∧ .connectBroker o.brokerAddress p o.keepalive ∈ rest) ∧
    h.timesync = o.timesync ∧ (h.clock = true ↔ o.noClock = false) ∧
    (o.project = none → h.labels = []) ∧
    ∀ f, o.project = some f → readCbzLabels env f = some (.ok h.labels) := by
  rcases main_cases env o with ⟨-, h1⟩ | ⟨act, labels, hp, -, hl, hm'⟩
  · exact absurd (congrArg Prod.snd hm) (h1 h)
  · rw [hm] at hm'
    injection hm' with e1 e2
    injection e2 with e2
    subst e1 e2
    refine ⟨?_, rfl, by cases o.noClock <;> simp, ?_, ?_⟩
    · unfold connectBroker
      cases o.disableTls with
      | true => exact ⟨act, _, _, hp, rfl, List.mem_append_right _ (by simp; rfl)⟩
      | false => exact ⟨act, _, _, hp, rfl, List.mem_append_right _ (by simp; rfl)⟩
    · intro h
      rcases hl with ⟨-, hl⟩ | ⟨f, hf, -⟩
      · exact hl
      · rw [h] at hf; cases hf
    · intro f hf
      rcases hl with ⟨h, -⟩ | ⟨f', hf', hl⟩
      · rw [h] at hf; cases hf
      · rw [hf'] at hf; injection hf with hf; subst hf; exact hl

/-- The options of the documentation, and one with everything. -/
example : main .ascii { brokerAddress := "192.0.2.1".toList, disableTls := true, serial := some "/dev/ttyUSB0".toList } =
    ([.openSerial "/dev/ttyUSB0".toList, .connectBroker "192.0.2.1".toList 1883 60], .running ⟨300, true, []⟩) := by
  decide +kernel

example : main .ascii {
      brokerAddress := "b".toList, brokerPort := 99, tcp := some "192.0.2.2:10001".toList,
      auth := some "user\nsecret\n".toList, clientCert := some ['c'], clientKey := some ['k'], noClock := true,
      timesync := 0, project := some (lightingFile [(7, "Hall".toList)]) } =
    ([.openTcp "192.0.2.2".toList 10001, .credentials "user".toList "secret".toList, .tls none (some ['c']) (some ['k']),
      .connectBroker "b".toList 99 60], .running ⟨0, false, [(some 7, "Hall".toList)]⟩) := by decide +kernel

/-! ## C83 -/

/-- The claim: `--tcp host:port` connects to that host and port. -/
def C83_claim : Prop :=
  ∀ (env : Env) (o : Daemon.Options) (host : Str) (port : Int), host ≠ [] → o.serial = none →
    o.tcp = some (host ++ ':' :: (toString port).toList) → connectPci env o = .ok (.openTcp host port)

/-- C83 is false: with an IPv6 address another host and port are tried. -/
theorem C83_false : ¬ C83_claim := by
  intro h
  have := h .ascii { brokerAddress := [], tcp := some "2001:5::1:10001".toList } "2001:5::1".toList 10001
    (by decide) rfl (by decide +kernel)
  revert this
  decide +kernel

/-- C83: this is what happens with an address that contains a colon: the text before it
is taken for the host and the text up to the next colon for the port. -/
theorem C83_colon (env : Env) (o : Daemon.Options) (a b rest : Str) (ha : ':' ∉ a) (hb : ':' ∉ b)
    (hs : o.serial = none) (ht : o.tcp = some (a ++ ':' :: b ++ ':' :: rest)) :
    connectPci env o = (env.uni.intOf b).map (.openTcp a) := by
  have sp : ∀ (n : Nat) (a r : Str), ':' ∉ a → splitMax ':' (n + 1) (a ++ ':' :: r) = a :: splitMax ':' n r := by
    intro n a r ha
    have h : ∀ c ∈ a, decide (c ≠ ':') = true := by
      intro c hc
      simp only [decide_eq_true_eq]
      rintro rfl; exact ha hc
    rw [splitMax.eq_2]
    rw [List.dropWhile_append_of_pos h, List.takeWhile_append_of_pos h]
    simp only [ne_eq, not_true_eq_false, decide_false, Bool.false_eq_true, not_false_eq_true,
      List.dropWhile_cons_of_neg, List.takeWhile_cons_of_neg, List.append_nil]
  unfold connectPci
  rw [hs, ht]
  have h1 : truthy (none : Option Str) = false := rfl
  have h2 : truthy (some (a ++ ':' :: b ++ ':' :: rest)) = true := (truthy_iff _).2 ⟨_, rfl, by simp⟩
  rw [h1, h2]
  simp only [Bool.false_eq_true, if_false, if_true, Option.getD_some]
  have e : a ++ ':' :: b ++ ':' :: rest = a ++ ':' :: (b ++ ':' :: rest) := by simp
  rw [e, sp 1 a _ ha, sp 0 b _ hb]
  simp only
  cases env.uni.intOf b <;> rfl

/-- C83, the part that holds: every host without a colon, every port. Missing: IPv6
addresses, for which it is false. -/
theorem C83_host_partial (env : Env) (o : Daemon.Options) (host : Str) (port : Int) (hh : ':' ∉ host) (hs : o.serial = none)
    (ht : o.tcp = some (host ++ ':' :: (toString port).toList)) : connectPci env o = .ok (.openTcp host port) := by
  have hp : ':' ∉ (toString port).toList := by
    rw [← intStr_toString]
    intro hc
    rcases intStr_char port ':' hc with h | h
    · revert h; decide
    · revert h; decide
  have sp : splitMax ':' 2 (host ++ ':' :: (toString port).toList) = [host, (toString port).toList] := by
    have h : ∀ (a : Str), ':' ∉ a → ∀ c ∈ a, decide (c ≠ ':') = true := by
      intro a ha c hc
      simp only [decide_eq_true_eq]
      rintro rfl; exact ha hc
    unfold splitMax
    rw [List.dropWhile_append_of_pos (h _ hh), List.takeWhile_append_of_pos (h _ hh)]
    simp only [ne_eq, not_true_eq_false, decide_false, Bool.false_eq_true, not_false_eq_true,
      List.dropWhile_cons_of_neg, List.takeWhile_cons_of_neg, List.append_nil]
    unfold splitMax
    have hd : (toString port).toList.dropWhile (fun c => decide (¬ c = ':')) = [] := by
      have : ∀ l : Str, (∀ c ∈ l, decide (c ≠ ':') = true) → l.dropWhile (fun c => decide (¬ c = ':')) = [] := by
        intro l
        induction l with
        | nil => intro _; rfl
        | cons c l ih =>
          intro h
          rw [List.dropWhile_cons, if_pos (h c List.mem_cons_self)]
          exact ih fun x hx => h x (List.mem_cons_of_mem _ hx)
      exact this _ (h _ hp)
    simp only [ne_eq, hd]
  unfold connectPci
  rw [hs, ht]
  have h1 : truthy (none : Option Str) = false := rfl
  have h2 : truthy (some (host ++ ':' :: (toString port).toList)) = true := (truthy_iff _).2 ⟨_, rfl, by simp⟩
  rw [h1, h2]
  simp only [Bool.false_eq_true, if_false, if_true, Option.getD_some, sp]
  rw [← intStr_toString, UniTable.intOf_intStr]

example : connectPci .ascii { brokerAddress := [], tcp := some "2001:5::1:10001".toList } =
      .ok (.openTcp "2001".toList 5) ∧
    connectPci .ascii { brokerAddress := [], tcp := some "[::1]:10001".toList } = .error .valueError ∧
    connectPci .ascii { brokerAddress := [], tcp := some "cni.example".toList } = .error .indexError := by
  decide +kernel

/-! ## C87: the MQTT client in the event loop -/

/-- The client opens and closes its sockets one after the other: after a socket is
opened, it is closed before another one is opened. -/
inductive Alternates : Option Nat → List HEvent → Option Nat → Prop
  | nil (s) : Alternates s [] s
  | opened (n es r) : Alternates (some n) es r → Alternates none (.opened n :: es) r
  | closed (n es r) : Alternates none es r → Alternates (some n) (.closed n :: es) r
  | registerWrite (s n es r) : Alternates s es r → Alternates s (.registerWrite n :: es) r
  | unregisterWrite (s n es r) : Alternates s es r → Alternates s (.unregisterWrite n :: es) r
  | wake (s t b es r) : Alternates s es r → Alternates s (.wake t b :: es) r

/-- The state of the helper while a socket is open or not. -/
def HelperInv (open' : Option Nat) (h : Helper) : Prop :=
  h.readers = open'.toList ∧ (∀ t ∈ h.tasks, open' ≠ none ∧ h.misc = some t) ∧ h.tasks.length ≤ 1 ∧
  (∀ t ∈ h.tasks, t < h.next) ∧ (open' ≠ none → h.misc ≠ none)

theorem helper_run (es : List HEvent) : ∀ (s r : Option Nat) (h : Helper), Alternates s es r → HelperInv s h →
    ∃ h', h.run es = .ok h' ∧ HelperInv r h' := by
  induction es with
  | nil =>
    intro s r h ha hi
    cases ha
    exact ⟨h, rfl, hi⟩
  | cons e es ih =>
    intro s r h ha ⟨i1, i2, i3, i4, i5⟩
    have flen : ∀ t : Nat, (h.tasks.filter fun x => decide (x ≠ t)).length ≤ 1 :=
      fun t => Nat.le_trans (List.length_filter_le _ _) i3
    cases ha with
    | opened n _ _ ha =>
      have hempty : h.tasks = [] := by
        cases ht : h.tasks with
        | nil => rfl
        | cons t ts => exact absurd rfl (i2 t (by rw [ht]; exact List.mem_cons_self)).1
      have hr : h.readers = [] := by simpa using i1
      refine ih (some n) r _ ha ⟨?_, ?_, ?_, ?_, ?_⟩
      · simp [hr, insertNew]
      · intro t ht
        rw [hempty] at ht
        simp at ht
        simp [ht]
      · simp [hempty]
      · intro t ht
        rw [hempty] at ht
        simp at ht
        show t < h.next + 1
        omega
      · simp
    | closed n _ _ ha =>
      obtain ⟨m, hm⟩ := Option.ne_none_iff_exists'.1 (i5 (by simp))
      have hs : h.step (.closed n) = .ok { h with
          readers := h.readers.filter (· ≠ n), tasks := h.tasks.filter (· ≠ m) } := by
        simp only [Helper.step, hm]
      unfold Helper.run
      rw [hs]
      refine ih none r _ ha ⟨?_, ?_, ?_, ?_, by simp⟩
      · have hr : h.readers = [n] := by simpa using i1
        simp [hr]
      · intro t ht
        have := List.mem_filter.1 ht
        have h2 := (i2 t this.1).2
        rw [hm] at h2
        injection h2 with h2
        simp [h2] at this
      · exact flen m
      · intro t ht
        exact i4 t (List.mem_filter.1 ht).1
    | registerWrite _ n _ _ ha => exact ih s r _ ha ⟨i1, i2, i3, i4, i5⟩
    | unregisterWrite _ n _ _ ha => exact ih s r _ ha ⟨i1, i2, i3, i4, i5⟩
    | wake _ t b _ _ ha =>
      cases b with
      | true => exact ih s r _ ha ⟨i1, i2, i3, i4, i5⟩
      | false =>
        refine ih s r _ ha ⟨i1, ?_, flen t, ?_, i5⟩
        · intro x hx
          exact i2 x (List.mem_filter.1 hx).1
        · intro x hx
          exact i4 x (List.mem_filter.1 hx).1

/-- C87: over any history in which the MQTT client opens its sockets one after the
other, the event loop reads exactly the open socket and runs at most one task of
housekeeping, and none when no socket is open. -/
theorem C87_reads (es : List HEvent) (r : Option Nat) (h : Alternates none es r) :
    ∃ s, Helper.run {} es = .ok s ∧ s.readers = r.toList ∧ s.tasks.length ≤ 1 ∧ (r = none → s.tasks = []) := by
  obtain ⟨s, h1, i1, i2, i3, -, -⟩ := helper_run es none r {} h ⟨rfl, by simp, by simp, by simp, by simp⟩
  refine ⟨s, h1, i1, i3, fun e => ?_⟩
  cases ht : s.tasks with
  | nil => rfl
  | cons t ts => exact absurd e (i2 t (by rw [ht]; exact List.mem_cons_self)).1

/-- C87: after a socket is opened, the housekeeping goes on as long as it succeeds. -/
theorem C87_housekeeping (es : List HEvent) (h : Alternates none es none) (n : Nat) (later : List HEvent)
    (hl : ∀ e ∈ later, (∃ m, e = .registerWrite m) ∨ (∃ m, e = .unregisterWrite m) ∨ ∃ t, e = .wake t true) :
    ∃ s, Helper.run {} (es ++ .opened n :: later) = .ok s ∧ s.readers = [n] ∧ ∃ t, s.tasks = [t] ∧ s.misc = some t := by
  obtain ⟨s, h1, i1, -, i3⟩ := C87_reads es none h
  have happ : ∀ (es later : List HEvent) (a : Helper), Helper.run a (es ++ later) =
      match Helper.run a es with
      | .ok b => Helper.run b later
      | .error e => .error e := by
    intro es later
    induction es with
    | nil => intro a; rfl
    | cons e es ih =>
      intro a
      rw [List.cons_append, Helper.run.eq_2, Helper.run.eq_2]
      cases a.step e with
      | error err => rfl
      | ok b => exact ih b
  rw [happ, h1]
  have key : ∀ (later : List HEvent) (s : Helper), (∀ e ∈ later, (∃ m, e = .registerWrite m) ∨
      (∃ m, e = .unregisterWrite m) ∨ ∃ t, e = .wake t true) →
      ∃ s', s.run later = .ok s' ∧ s'.readers = s.readers ∧ s'.tasks = s.tasks ∧ s'.misc = s.misc := by
    intro later
    induction later with
    | nil => intro s _; exact ⟨s, rfl, rfl, rfl, rfl⟩
    | cons e later ih =>
      intro s hl
      have hr := fun s' => ih s' fun x hx => hl x (List.mem_cons_of_mem _ hx)
      unfold Helper.run
      rcases hl e List.mem_cons_self with ⟨m, rfl⟩ | ⟨m, rfl⟩ | ⟨t, rfl⟩
      · exact hr { s with writers := insertNew s.writers m }
      · exact hr { s with writers := s.writers.filter (· ≠ m) }
      · exact hr s
  obtain ⟨s', k1, k2, k3, k4⟩ := key later { s with
    readers := insertNew s.readers n, tasks := s.tasks ++ [s.next], misc := some s.next, next := s.next + 1 } hl
  have hr : s.readers = [] := by simpa using i1
  refine ⟨s', k1, ?_, s.next, ?_, k4⟩
  · rw [k2]; simp [hr, insertNew]
  · rw [k3]; simp [i3 rfl]

/-- C87: over all histories, in order or not, only one thing makes a callback raise: a socket that is
closed before any has been opened. -/
theorem C87_raises (es : List HEvent) (err : PyErr) :
    Helper.run {} es = .error err ↔
      err = .attributeError ∧ ∃ a s b, es = a ++ .closed s :: b ∧ ∀ n, .opened n ∉ a := by
  have never : ∀ (es : List HEvent) (h : Helper), h.misc ≠ none → Helper.run h es ≠ .error err := by
    intro es
    induction es with
    | nil => intro h _ he; cases he
    | cons e es ih =>
      intro h hm
      cases hk : h.misc with
      | none => exact absurd hk hm
      | some t =>
        cases e <;> simp only [Helper.run, Helper.step, hk] <;> refine ih _ ?_ <;> simp [hk]
        split <;> simp [hk]
  have key : ∀ (es : List HEvent) (h : Helper), h.misc = none → (Helper.run h es = .error err ↔
      err = .attributeError ∧ ∃ a s b, es = a ++ .closed s :: b ∧ ∀ n, .opened n ∉ a) := by
    intro es
    induction es with
    | nil => intro h _; simp [Helper.run]
    | cons e es ih =>
      intro h hm
      have step : ∀ h' : Helper, h'.misc = none → h.step e = .ok h' → (∀ n, e ≠ .opened n) → (∀ n, e ≠ .closed n) →
          (Helper.run h (e :: es) = .error err ↔
            err = .attributeError ∧ ∃ a s b, e :: es = a ++ .closed s :: b ∧ ∀ n, .opened n ∉ a) := by
        intro h' hm' hs ho hc
        rw [Helper.run, hs]
        refine (ih h' hm').trans ⟨?_, ?_⟩
        · rintro ⟨h1, a, s, b, rfl, h3⟩
          refine ⟨h1, e :: a, s, b, rfl, fun n hn => ?_⟩
          rcases List.mem_cons.mp hn with hn | hn
          · exact ho n hn.symm
          · exact h3 n hn
        · rintro ⟨h1, a, s, b, h2, h3⟩
          cases a with
          | nil => exact absurd (List.cons.inj h2).1 (hc s)
          | cons x a =>
            exact ⟨h1, a, s, b, (List.cons.inj h2).2, fun n hn => h3 n (List.mem_cons_of_mem _ hn)⟩
      cases e with
      | opened n =>
        constructor
        · intro he
          exact absurd he (never es _ (by simp))
        · rintro ⟨-, a, s, b, h2, h3⟩
          cases a with
          | nil => cases (List.cons.inj h2).1
          | cons x a =>
            obtain ⟨rfl, -⟩ := List.cons.inj h2
            exact absurd List.mem_cons_self (h3 n)
      | closed n =>
        simp only [Helper.run, Helper.step, hm]
        constructor
        · intro he; cases he
          exact ⟨rfl, [], n, es, rfl, by simp⟩
        · rintro ⟨rfl, -⟩; rfl
      | registerWrite n => exact step { h with writers := insertNew h.writers n } hm rfl (by simp) (by simp)
      | unregisterWrite n => exact step { h with writers := h.writers.filter (· ≠ n) } hm rfl (by simp) (by simp)
      | wake t ok =>
        refine step _ ?_ rfl (by simp) (by simp)
        cases ok <;> exact hm
  exact key es {} rfl

example : Helper.run {} [.registerWrite 5, .closed 5, .opened 5] = .error .attributeError := by decide +kernel

/-- Two connections, with writing and housekeeping in between. -/
example : Helper.run {} [.opened 5, .registerWrite 5, .wake 0 true, .unregisterWrite 5, .wake 0 true, .closed 5,
    .opened 6, .wake 1 true] = .ok ⟨[6], [], [1], 2, some 1⟩ := by decide +kernel

example : Alternates none [.opened 5, .registerWrite 5, .wake 0 true, .unregisterWrite 5, .closed 5, .opened 6] (some 6) :=
  .opened _ _ _ (.registerWrite _ _ _ _ (.wake _ _ _ _ _ (.unregisterWrite _ _ _ _ (.closed _ _ _
    (.opened _ _ _ (.nil _))))))

end CBus.Props
