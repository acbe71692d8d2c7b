import Verif.Model.Startup
import Verif.Props.Entrypoint

/-! # C132, C133, C134: starting the daemon when things fail -/

namespace CBus.Props
open CBus CBus.Cbz CBus.Daemon CBus.Spec
variable {α : Type}

/-! ## What is asked for -/

/-- The connection to the PCI can be made. -/
def Opens (w : World α) : Act → Prop
  | .openSerial d => w.serial d = .ok ()
  | .openTcp host port => w.tcp host port = .ok ()
  | _ => False

/-- An authority that the user wants to be trusted: one of the file that was named, or
one of Python's if none was named. -/
def Trusts (w : World α) (o : Daemon.Options) (i : α) : Prop :=
  (∀ p, o.ca = some p → p ≠ [] → ∃ content, w.disk p = some (.file content) ∧ i ∈ w.pem content) ∧
  (¬ Given o.ca → i ∈ w.store)

/-- The certificate and the key that were named are there and belong together. -/
def KeysGood (w : World α) (o : Daemon.Options) : Prop :=
  ∀ c k, o.clientCert = some c → c ≠ [] → o.clientKey = some k →
    ∃ x y, w.disk c = some (.file x) ∧ w.disk k = some (.file y) ∧ w.pair x y = true

/-- A name, a port and a keepalive that MQTT allows. -/
def BrokerAllowed (o : Daemon.Options) (p : Int) : Prop :=
  o.brokerAddress ≠ [] ∧ 0 < p ∧ 0 ≤ o.keepalive ∧ o.keepalive ≤ 65535

/-- There is a broker, which is reached in time, and with TLS it has a certificate for its
name from an authority that is trusted. -/
def BrokerGood (w : World α) (o : Daemon.Options) (p : Int) : Prop :=
  BrokerAllowed o p ∧ ∃ peer, w.server o.brokerAddress p o.keepalive = some peer ∧
    (o.disableTls = false → ∃ i, peer.issuer = some i ∧ o.brokerAddress ∈ peer.names ∧ Trusts w o i)

/-! ## The steps -/

theorem readFile_iff (w : World α) (p : Str) (c : Bytes) : readFile w p = .ok c ↔ w.disk p = some (.file c) := by
  unfold readFile
  split <;> simp_all

theorem loadAuthorities_iff (w : World α) (p : Str) (l : List α) :
    loadAuthorities w p = .ok l ↔ ∃ c, w.disk p = some (.file c) ∧ w.pem c = l ∧ l ≠ [] := by
  unfold loadAuthorities
  cases h : readFile w p with
  | error e =>
    simp only [reduceCtorEq, false_iff, not_exists]
    rintro c ⟨h1, -⟩
    rw [(readFile_iff w p c).2 h1] at h
    cases h
  | ok c =>
    have hd := (readFile_iff w p c).1 h
    simp only
    constructor
    · intro hl
      refine ⟨c, hd, ?_⟩
      split at hl
      · cases hl
      · rename_i hne
        injection hl with hl
        exact ⟨hl, hl ▸ fun hn => hne hn⟩
    · rintro ⟨c', h1, rfl, h3⟩
      rw [hd] at h1
      injection h1 with h1
      injection h1 with h1
      subst h1
      split
      · rename_i hn; exact absurd hn h3
      · rfl

theorem loadIdentity_iff (w : World α) (c k : Str) (r : Bytes × Bytes) :
    loadIdentity w c (some k) = .ok r ↔
      w.disk c = some (.file r.1) ∧ w.disk k = some (.file r.2) ∧ w.pair r.1 r.2 = true := by
  unfold loadIdentity
  cases h : readFile w c with
  | error e =>
    simp only [reduceCtorEq, false_iff]
    rintro ⟨h1, -⟩
    rw [(readFile_iff w c _).2 h1] at h
    cases h
  | ok x =>
    simp only [Option.getD_some]
    have hx := (readFile_iff w c x).1 h
    cases h' : readFile w k with
    | error e =>
      simp only [reduceCtorEq, false_iff]
      rintro ⟨-, h1, -⟩
      rw [(readFile_iff w k _).2 h1] at h'
      cases h'
    | ok y =>
      have hy := (readFile_iff w k y).1 h'
      simp only
      rw [hx, hy]
      constructor
      · intro hr
        split at hr
        · rename_i hp
          injection hr with hr
          subst hr
          exact ⟨rfl, rfl, hp⟩
        · cases hr
      · rintro ⟨h1, h2, h3⟩
        injection h1 with h1
        injection h1 with h1
        injection h2 with h2
        injection h2 with h2
        subst h1 h2
        rw [if_pos h3]

/-- What `tls_set` is given by the daemon. -/
def daemonTls (w : World α) (o : Daemon.Options) : Py (TlsContext α) :=
  tlsSet w (ifTrue o.ca) (ifTrue o.clientCert) (if truthy o.clientCert then o.clientKey else none)

theorem ifTrue_none (x : Option Str) : ifTrue x = none ↔ ¬ Given x := by
  unfold ifTrue
  rw [← truthy_iff]
  split
  · rename_i h
    cases x with
    | none => cases h
    | some s => simp [h]
  · rename_i h; simp [h]

/-- `tls_set` succeeds iff the files are good; then what is trusted is what was named. -/
theorem daemonTls_iff (w : World α) (o : Daemon.Options) (hg : Given o.clientCert ↔ Given o.clientKey) (c : TlsContext α) :
    daemonTls w o = .ok c ↔
      ((∀ p, o.ca = some p → p ≠ [] → ∃ content, w.disk p = some (.file content) ∧ w.pem content = c.trusted ∧ c.trusted ≠ []) ∧
        (¬ Given o.ca → c.trusted = w.store)) ∧
      ((∀ x y, o.clientCert = some x → x ≠ [] → o.clientKey = some y →
          ∃ r, c.identity = some r ∧ w.disk x = some (.file r.1) ∧ w.disk y = some (.file r.2) ∧ w.pair r.1 r.2 = true) ∧
        (¬ Given o.clientCert → c.identity = none)) := by
  have hca : ∀ id : Option (Bytes × Bytes),
      ((match ifTrue o.ca with
        | none => (.ok ⟨w.store, id⟩ : Py (TlsContext α))
        | some path => match loadAuthorities w path with
          | .error e => .error e
          | .ok l => .ok ⟨l, id⟩) = .ok c ↔
        ((∀ p, o.ca = some p → p ≠ [] → ∃ content, w.disk p = some (.file content) ∧ w.pem content = c.trusted ∧ c.trusted ≠ []) ∧
        (¬ Given o.ca → c.trusted = w.store)) ∧ c.identity = id) := by
    intro id
    cases h : ifTrue o.ca with
    | none =>
      have hn := (ifTrue_none o.ca).1 h
      simp only [Except.ok.injEq]
      constructor
      · rintro rfl
        exact ⟨⟨fun p hp hne => absurd ⟨p, hp, hne⟩ hn, fun _ => rfl⟩, rfl⟩
      · rintro ⟨⟨-, h2⟩, h3⟩
        cases c
        simp only at h2 h3
        rw [h2 hn, h3]
    | some p =>
      obtain ⟨hp, hne⟩ := (ifTrue_iff o.ca p).1 h
      simp only
      constructor
      · intro hl
        split at hl
        · cases hl
        · rename_i l hl'
          injection hl with hl
          subst hl
          obtain ⟨content, h1, h2, h3⟩ := (loadAuthorities_iff w p l).1 hl'
          refine ⟨⟨fun p' hp' _ => ?_, fun hn => absurd ⟨p, hp, hne⟩ hn⟩, rfl⟩
          rw [hp] at hp'
          injection hp' with hp'
          subst hp'
          exact ⟨content, h1, h2, h3⟩
      · rintro ⟨⟨h1, -⟩, rfl⟩
        rw [(loadAuthorities_iff w p c.trusted).2 (h1 p hp hne)]
  unfold daemonTls tlsSet
  cases hx : ifTrue o.clientCert with
  | none =>
    have hn := (ifTrue_none o.clientCert).1 hx
    refine (hca none).trans ?_
    refine and_congr_right fun _ => ⟨fun h => ⟨fun x y hx' hne => absurd ⟨x, hx', hne⟩ hn, fun _ => h⟩, fun h => h.2 hn⟩
  | some x =>
    obtain ⟨hx', hne⟩ := (ifTrue_iff o.clientCert x).1 hx
    have hgx : Given o.clientCert := ⟨x, hx', hne⟩
    obtain ⟨y, hy, hyne⟩ := hg.1 hgx
    rw [if_pos ((truthy_iff _).2 hgx), hy]
    simp only
    cases hi : loadIdentity w x (some y) with
    | error e =>
      simp only [Except.map, reduceCtorEq, false_iff]
      rintro ⟨-, h1, -⟩
      obtain ⟨r, -, h2⟩ := h1 x y hx' hne rfl
      rw [(loadIdentity_iff w x y r).2 h2] at hi
      cases hi
    | ok r =>
      simp only [Except.map]
      refine (hca (some r)).trans ?_
      refine and_congr_right fun _ => ?_
      constructor
      · intro h
        refine ⟨fun x' y' e1 _ e2 => ?_, fun hn => absurd hgx hn⟩
        rw [hx'] at e1
        injection e1 with e1
        injection e2 with e2
        subst e1 e2
        exact ⟨r, h, (loadIdentity_iff w x y r).1 hi⟩
      · rintro ⟨h1, -⟩
        obtain ⟨r', h2, h3⟩ := h1 x y hx' hne rfl
        rw [(loadIdentity_iff w x y r').2 h3] at hi
        injection hi with hi
        rw [h2, hi]

section
variable [DecidableEq α]

/-- The client after user name and password are read. -/
def authSession (env : Cbz.Env) (o : Daemon.Options) : Session α := { credentials := o.auth.map (readAuth env.uni) }

/-- The last steps. -/
def lastSteps (o : Daemon.Options) : List Act :=
  if o.disableTls then [.connectBroker o.brokerAddress (orInt o.brokerPort 1883) o.keepalive]
   else
    [.tls (ifTrue o.ca) (ifTrue o.clientCert) (if truthy o.clientCert then o.clientKey else none),
      .connectBroker o.brokerAddress (orInt o.brokerPort 8883) o.keepalive]

theorem broker_steps (w : World α) (env : Cbz.Env) (o : Daemon.Options) :
    ∃ creds : List Act, (∀ a ∈ creds, ∃ u p, a = .credentials u p) ∧ connectBroker env o = creds ++ lastSteps o ∧
      ∀ l, performAll w {} (creds ++ l) =
        (creds ++ (performAll w (authSession env o) l).1, (performAll w (authSession env o) l).2) := by
  unfold connectBroker authSession
  cases o.auth with
  | none => exact ⟨[], by simp, rfl, fun l => rfl⟩
  | some t => exact ⟨[.credentials (readAuth env.uni t).1 (readAuth env.uni t).2], by simp, rfl, fun l => rfl⟩

theorem broker_port (o : Daemon.Options) (p : Int) : BrokerPort o p ↔ p = orInt o.brokerPort (if o.disableTls then 1883 else 8883) := by
  unfold BrokerPort orInt
  by_cases h : o.brokerPort = 0 <;> cases o.disableTls <;> simp [h]

theorem brokerConnect_iff (w : World α) (m : Session α) (a : Str) (p k : Int) :
    brokerConnect w m a p k = .ok () ↔ (a ≠ [] ∧ 0 < p ∧ 0 ≤ k ∧ k ≤ 65535) ∧ ∃ peer, w.server a p k = some peer ∧
      ∀ c, m.context = some c → ∃ i, peer.issuer = some i ∧ a ∈ peer.names ∧ i ∈ c.trusted := by
  have hh : ∀ peer : Peer α, handshake m a peer = true ↔
      ∀ c, m.context = some c → ∃ i, peer.issuer = some i ∧ a ∈ peer.names ∧ i ∈ c.trusted := by
    intro peer
    unfold handshake
    cases m.context with
    | none => simp
    | some c =>
      cases peer.issuer with
      | none => simp
      | some i => simp [and_comm]
  unfold brokerConnect
  split
  · rename_i h
    simp only [reduceCtorEq, false_iff]
    rintro ⟨⟨h1, h2, h3, -⟩, -⟩
    rcases h with h | h | h
    · exact h1 h
    · omega
    · omega
  · rename_i h
    simp only [not_or, Int.not_le, Int.not_lt] at h
    obtain ⟨h1, h2, h3⟩ := h
    cases hs : w.server a p k with
    | none => simp
    | some peer =>
      simp only
      split
      · rename_i hp
        rw [hh] at hp
        split
        · rename_i hk
          exact ⟨fun _ => ⟨⟨h1, h2, h3, hk⟩, peer, rfl, hp⟩, fun _ => rfl⟩
        · rename_i hk
          simp only [reduceCtorEq, false_iff]
          rintro ⟨⟨-, -, -, h4⟩, -⟩
          exact hk h4
      · rename_i hp
        rw [hh] at hp
        simp only [reduceCtorEq, false_iff]
        rintro ⟨-, peer', h4, h5⟩
        injection h4 with h4
        subst h4
        exact hp h5

theorem perform_broker (w : World α) (m : Session α) (a : Str) (p k : Int) :
    (perform w m (.connectBroker a p k) = .ok m ∧ brokerConnect w m a p k = .ok ()) ∨
      (∃ e, perform w m (.connectBroker a p k) = .error e ∧ brokerConnect w m a p k ≠ .ok ()) := by
  cases h : brokerConnect w m a p k with
  | ok u => exact .inl ⟨by simp only [perform, h, Except.map], rfl⟩
  | error e => exact .inr ⟨e, by simp only [perform, h, Except.map], by simp⟩

omit [DecidableEq α] in
theorem readFile_error {w : World α} {p : Str} {e : PyErr} (h : readFile w p = .error e) : e = .ioError := by
  unfold readFile at h
  split at h
  · cases h
  · injection h with h; exact h.symm

omit [DecidableEq α] in
theorem tlsSet_error {w : World α} {a b c : Option Str} {e : PyErr} (h : tlsSet w a b c = .error e) : e = .ioError := by
  have hl : ∀ {p e}, loadAuthorities w p = .error e → e = .ioError := by
    intro p e h
    unfold loadAuthorities at h
    split at h
    · rename_i h'; injection h with h; exact h ▸ readFile_error h'
    · split at h
      · injection h with h; exact h.symm
      · cases h
  have hi : ∀ {p q e}, loadIdentity w p q = .error e → e = .ioError := by
    intro p q e h
    unfold loadIdentity at h
    split at h
    · rename_i h'; injection h with h; exact h ▸ readFile_error h'
    · split at h
      · rename_i h'; injection h with h; exact h ▸ readFile_error h'
      · split at h
        · cases h
        · injection h with h; exact h.symm
  have ht : ∀ id : Option (Bytes × Bytes), (match a with
        | none => (.ok ⟨w.store, id⟩ : Py (TlsContext α))
        | some path => match loadAuthorities w path with
          | .error e => .error e
          | .ok l => .ok ⟨l, id⟩) = .error e → e = .ioError := by
    intro id h
    split at h
    · cases h
    · split at h
      · rename_i h'; injection h with h; exact h ▸ hl h'
      · cases h
  unfold tlsSet at h
  cases b with
  | none => exact ht none h
  | some x =>
    simp only at h
    cases hy : loadIdentity w x c with
    | error z =>
      rw [hy] at h
      injection h with h
      exact h ▸ hi hy
    | ok z =>
      rw [hy] at h
      exact ht (some z) h

/-- Why the last steps fail: TLS cannot be set up, or the broker is not good. -/
def LastFailure (w : World α) (o : Daemon.Options) (p : Int) (e : PyErr) : Prop :=
  (o.disableTls = false ∧ (∀ c, daemonTls w o ≠ .ok c) ∧ e = .ioError) ∨
  ((o.disableTls = false → ∃ c, daemonTls w o = .ok c) ∧ ¬ BrokerGood w o p)

/-- The last steps in a world: they are carried out, or one of them raises and the broker is
not connected. -/
theorem last_steps (w : World α) (m : Session α) (hm : m.context = none) (o : Daemon.Options)
    (hg : Given o.clientCert ↔ Given o.clientKey) (p : Int) (hp : BrokerPort o p) :
    (∃ m', performAll w m (lastSteps o) = (lastSteps o, .ok m') ∧ m'.credentials = m.credentials ∧
      BrokerGood w o p ∧ (o.disableTls = true → m'.context = none) ∧
      (o.disableTls = false → ∃ c, m'.context = some c ∧ daemonTls w o = .ok c ∧
        ∃ peer i, w.server o.brokerAddress p o.keepalive = some peer ∧ peer.issuer = some i ∧ i ∈ c.trusted)) ∨
    (∃ e done, performAll w m (lastSteps o) = (done, .error e) ∧ (∀ a p k, .connectBroker a p k ∉ done) ∧
      done <+: lastSteps o ∧ LastFailure w o p e) := by
  rw [broker_port] at hp
  subst hp
  unfold lastSteps BrokerGood LastFailure
  cases ht : o.disableTls with
  | true =>
    simp only [if_true]
    rcases perform_broker w m o.brokerAddress (orInt o.brokerPort 1883) o.keepalive with ⟨h1, h2⟩ | ⟨e, h1, h2⟩
    · left
      refine ⟨m, ?_, rfl, ?_, fun _ => hm, by simp⟩
      · simp only [performAll, h1]
      · obtain ⟨h3, peer, h4, -⟩ := (brokerConnect_iff ..).1 h2
        exact ⟨h3, peer, h4, by simp⟩
    · right
      refine ⟨e, [], ?_, by simp, by simp, .inr ⟨by simp, ?_⟩⟩
      · simp only [performAll, h1]
      · rintro ⟨h3, peer, h4, -⟩
        exact h2 ((brokerConnect_iff ..).2 ⟨h3, peer, h4, fun c hc => by rw [hm] at hc; cases hc⟩)
  | false =>
    simp only [Bool.false_eq_true, if_false]
    cases hc : daemonTls w o with
    | error e =>
      right
      refine ⟨e, [], ?_, by simp, by simp, .inl ⟨trivial, fun c h => by simp at h, tlsSet_error hc⟩⟩
      unfold daemonTls at hc
      simp only [performAll, perform, hc, Except.map]
    | ok c =>
      have hiff := (daemonTls_iff w o hg c).1 hc
      have htrust : ∀ i, i ∈ c.trusted ↔ Trusts w o i := by
        intro i
        constructor
        · intro hi
          refine ⟨fun q hq hne => ?_, fun hn => hiff.1.2 hn ▸ hi⟩
          obtain ⟨content, k1, k2, -⟩ := hiff.1.1 q hq hne
          exact ⟨content, k1, k2 ▸ hi⟩
        · rintro ⟨ht1, ht2⟩
          by_cases hgc : Given o.ca
          · obtain ⟨q, hq, hne⟩ := hgc
            obtain ⟨content, k1, k2⟩ := ht1 q hq hne
            obtain ⟨content', k3, k4, -⟩ := hiff.1.1 q hq hne
            rw [k1] at k3
            injection k3 with k3
            injection k3 with k3
            subst k3
            exact k4 ▸ k2
          · rw [hiff.1.2 hgc]
            exact ht2 hgc
      unfold daemonTls at hc
      rcases perform_broker w { m with context := some c } o.brokerAddress (orInt o.brokerPort 8883) o.keepalive with
        ⟨h1, h2⟩ | ⟨e, h1, h2⟩
      · left
        obtain ⟨h3, peer, h4, h5⟩ := (brokerConnect_iff ..).1 h2
        obtain ⟨i, k1, k2, k3⟩ := h5 c rfl
        refine ⟨{ m with context := some c }, ?_, rfl, ⟨h3, peer, h4, fun _ => ⟨i, k1, k2, (htrust i).1 k3⟩⟩, by simp,
          fun _ => ⟨c, rfl, rfl, peer, i, h4, k1, k3⟩⟩
        simp only [performAll, perform, hc, Except.map, h2]
      · right
        refine ⟨e, [.tls (ifTrue o.ca) (ifTrue o.clientCert) (if truthy o.clientCert then o.clientKey else none)], ?_, by simp,
          by simp, .inr ⟨fun _ => ⟨c, rfl⟩, ?_⟩⟩
        · have h3 : perform w m (.tls (ifTrue o.ca) (ifTrue o.clientCert) (if truthy o.clientCert then o.clientKey else none)) =
              .ok { m with context := some c } := by simp only [perform, hc, Except.map]
          simp only [performAll, h3, h1]
        · rintro ⟨h3, peer, h4, h5⟩
          obtain ⟨i, k1, k2, k3⟩ := h5 ht
          refine h2 ((brokerConnect_iff ..).2 ⟨h3, peer, h4, fun c' hc' => ?_⟩)
          injection hc' with hc'
          subst hc'
          exact ⟨i, k1, k2, (htrust i).2 k3⟩

/-- All that can happen. -/
theorem startup_cases (w : World α) (env : Cbz.Env) (o : Daemon.Options) :
    ((main env o).1 = [] ∧ (∀ h, (main env o).2 ≠ .running h) ∧ startup w env o = ([], .ended (main env o).2)) ∨
    ∃ act h p, connectPci env o = .ok act ∧ (Given o.clientCert ↔ Given o.clientKey) ∧ BrokerPort o p ∧
      main env o = (act :: connectBroker env o, .running h) ∧
      ((¬ Opens w act ∧ ∃ e, startup w env o = ([], .failed e)) ∨
       (Opens w act ∧ BrokerGood w o p ∧ ∃ m, startup w env o = (act :: connectBroker env o, .running h m) ∧
          m.credentials = o.auth.map (readAuth env.uni) ∧ (o.disableTls = true → m.context = none) ∧
          (o.disableTls = false → ∃ c, m.context = some c ∧ daemonTls w o = .ok c ∧
            ∃ peer i, w.server o.brokerAddress p o.keepalive = some peer ∧ peer.issuer = some i ∧ i ∈ c.trusted)) ∨
       (Opens w act ∧ ∃ e done, startup w env o = (act :: done, .failed e) ∧ done <+: connectBroker env o ∧
          (∀ a p k, .connectBroker a p k ∉ done) ∧ LastFailure w o p e)) := by
  rcases main_cases env o with ⟨h1, h2⟩ | ⟨act, labels, hp, hg, -, hm⟩
  · left
    refine ⟨h1, h2, ?_⟩
    unfold startup
    cases hm : main env o with
    | mk acts e =>
      rw [hm] at h1 h2
      simp only at h1 h2
      subst h1
      cases e with
      | running h => exact absurd rfl (h2 h)
      | usage => rfl
      | cbzError => rfl
      | raised e => rfl
  · right
    refine ⟨act, _, _, hp, hg, (broker_port o _).2 rfl, hm, ?_⟩
    obtain ⟨creds, hc1, hc2, hc3⟩ := broker_steps w env o
    have hopen : (Opens w act ∧ perform w {} act = .ok {}) ∨ (¬ Opens w act ∧ ∃ e, perform w {} act = .error e) := by
      unfold connectPci at hp
      have hs : ∀ d, (Opens w (.openSerial d) ∧ perform w {} (.openSerial d) = .ok {}) ∨
          (¬ Opens w (.openSerial d) ∧ ∃ e, perform w {} (.openSerial d) = .error e) := by
        intro d
        cases h : w.serial d with
        | ok u => exact .inl ⟨h, by simp only [perform, h, Except.map]⟩
        | error e => exact .inr ⟨by simp [Opens, h], e, by simp only [perform, h, Except.map]⟩
      have ht : ∀ d p, (Opens w (.openTcp d p) ∧ perform w {} (.openTcp d p) = .ok {}) ∨
          (¬ Opens w (.openTcp d p) ∧ ∃ e, perform w {} (.openTcp d p) = .error e) := by
        intro d p
        cases h : w.tcp d p with
        | ok u => exact .inl ⟨h, by simp only [perform, h, Except.map]⟩
        | error e => exact .inr ⟨by simp [Opens, h], e, by simp only [perform, h, Except.map]⟩
      split at hp
      · injection hp with hp; subst hp; exact hs _
      · split at hp
        · split at hp
          · split at hp
            · injection hp with hp; subst hp; exact ht _ _
            · cases hp
          · cases hp
        · cases hp
    rcases hopen with ⟨ho, hper⟩ | ⟨ho, e, hper⟩
    · right
      rcases last_steps w (authSession env o) rfl o hg _ ((broker_port o _).2 rfl) with
        ⟨m', h1, h2, h3, h4, h5⟩ | ⟨e, done, h1, h2, h3, h4⟩
      · left
        refine ⟨ho, h3, m', ?_, h2, h4, h5⟩
        unfold startup
        rw [hm]
        simp only [performAll, hper]
        rw [hc2, hc3, h1]
      · right
        refine ⟨ho, e, creds ++ done, ?_, ?_, ?_, h4⟩
        · unfold startup
          rw [hm]
          simp only [performAll, hper]
          rw [hc2, hc3, h1]
        · rw [hc2]
          exact List.prefix_append_right_inj creds |>.2 h3
        · intro a p k hmem
          rcases List.mem_append.1 hmem with h | h
          · obtain ⟨u, q, hq⟩ := hc1 _ h
            cases hq
          · exact h2 a p k h
    · left
      refine ⟨ho, e, ?_⟩
      unfold startup
      rw [hm]
      simp only [performAll, hper]

theorem pci_not_broker {env : Cbz.Env} {o : Daemon.Options} {act : Act} (h : connectPci env o = .ok act) (a : Str) (p k : Int) :
    act ≠ .connectBroker a p k := by
  rintro rfl
  unfold connectPci at h
  split at h
  · cases h
  · split at h
    · split at h
      · split at h <;> cases h
      · cases h
    · cases h

/-! ## C134 -/

/-- C134: the daemon runs exactly if its command line is good, the PCI can be opened, the
files that TLS needs are good and there is a broker, whose certificate is good if TLS is
used. -/
theorem C134_runs (w : World α) (env : Cbz.Env) (o : Daemon.Options) :
    (∃ h m, (startup w env o).2 = .running h m) ↔
      (∃ h, (main env o).2 = .running h) ∧ (∃ act, connectPci env o = .ok act ∧ Opens w act) ∧
      (o.disableTls = false → KeysGood w o) ∧ ∃ p, BrokerPort o p ∧ BrokerGood w o p := by
  rcases startup_cases w env o with ⟨-, h2, h3⟩ | ⟨act, h, p, hp, hg, hb, hm, hcase⟩
  · rw [h3]
    simp only [reduceCtorEq, exists_false, false_iff]
    rintro ⟨⟨h, hh⟩, -⟩
    exact h2 h hh
  · rcases hcase with ⟨ho, e, hs⟩ | ⟨ho, hgood, m, hs, -, -, hctx⟩ | ⟨ho, e, done, hs, -, -, hlf⟩
    · rw [hs]
      simp only [reduceCtorEq, exists_false, false_iff]
      rintro ⟨-, ⟨act', ha, hO⟩, -⟩
      rw [hp] at ha
      injection ha with ha
      exact ho (ha ▸ hO)
    · rw [hs]
      refine ⟨fun _ => ⟨⟨h, by rw [hm]⟩, ⟨act, hp, ho⟩, fun ht => ?_, p, hb, hgood⟩, fun _ => ⟨h, m, rfl⟩⟩
      obtain ⟨c, -, hc, -⟩ := hctx ht
      intro x y hx hne hy
      obtain ⟨r, -, hr⟩ := ((daemonTls_iff w o hg c).1 hc).2.1 x y hx hne hy
      exact ⟨r.1, r.2, hr⟩
    · rw [hs]
      simp only [reduceCtorEq, exists_false, false_iff]
      rintro ⟨-, -, hkeys, q, hq, hbg⟩
      have hpq : q = p := by rw [broker_port] at hb hq; rw [hb, hq]
      subst hpq
      rcases hlf with ⟨ht, hno, -⟩ | ⟨-, hno⟩
      · obtain ⟨-, peer, hpeer, hi⟩ := hbg
        obtain ⟨i, hi1, hi2, ht1, ht2⟩ := hi ht
        have hk := hkeys ht
        · have htr : ∃ l : List α, (∀ p, o.ca = some p → p ≠ [] → ∃ content, w.disk p = some (.file content) ∧ w.pem content = l ∧ l ≠ []) ∧
              (¬ Given o.ca → l = w.store) := by
            by_cases hgc : Given o.ca
            · obtain ⟨f, hf, hfne⟩ := hgc
              obtain ⟨content, k1, k2⟩ := ht1 f hf hfne
              refine ⟨w.pem content, fun f' hf' _ => ?_, fun hn => absurd ⟨f, hf, hfne⟩ hn⟩
              rw [hf] at hf'
              injection hf' with hf'
              subst hf'
              exact ⟨content, k1, rfl, fun hnil => by rw [hnil] at k2; cases k2⟩
            · exact ⟨w.store, fun f hf hfne => absurd ⟨f, hf, hfne⟩ hgc, fun _ => rfl⟩
          obtain ⟨l, hl1, hl2⟩ := htr
          have hid : ∃ id : Option (Bytes × Bytes), (∀ x y, o.clientCert = some x → x ≠ [] → o.clientKey = some y →
              ∃ r, id = some r ∧ w.disk x = some (.file r.1) ∧ w.disk y = some (.file r.2) ∧ w.pair r.1 r.2 = true) ∧
              (¬ Given o.clientCert → id = none) := by
            by_cases hgc : Given o.clientCert
            · obtain ⟨y, hy, -⟩ := hg.1 hgc
              obtain ⟨x, hx, hxne⟩ := hgc
              obtain ⟨a, b, k1, k2, k3⟩ := hk x y hx hxne hy
              refine ⟨some (a, b), fun x' y' hx' _ hy' => ?_, fun hn => absurd ⟨x, hx, hxne⟩ hn⟩
              rw [hx] at hx'
              rw [hy] at hy'
              injection hx' with hx'
              injection hy' with hy'
              subst hx' hy'
              exact ⟨(a, b), rfl, k1, k2, k3⟩
            · exact ⟨none, fun x y hx hxne => absurd ⟨x, hx, hxne⟩ hgc, fun _ => rfl⟩
          obtain ⟨id, hid1, hid2⟩ := hid
          exact hno ⟨l, id⟩ ((daemonTls_iff w o hg ⟨l, id⟩).2 ⟨⟨hl1, hl2⟩, hid1, hid2⟩)
      · exact hno hbg

/-- C134: nothing is done in another order than when nothing fails, and nothing is done
after a step that fails; the daemon runs only when all is done, and connecting to the
broker is the last step, so that a broker never hears of a daemon that has no PCI. -/
theorem C134_order (w : World α) (env : Cbz.Env) (o : Daemon.Options) :
    (startup w env o).1 <+: (main env o).1 ∧
    ((∃ h m, (startup w env o).2 = .running h m) ↔ ∃ a p k, .connectBroker a p k ∈ (startup w env o).1) ∧
    ((startup w env o).1 ≠ [] → ∃ act, (startup w env o).1.head? = some act ∧ connectPci env o = .ok act ∧ Opens w act) := by
  have hlast : ∃ a p k, Act.connectBroker a p k ∈ connectBroker env o := by
    unfold connectBroker
    cases o.disableTls
    · exact ⟨_, _, _, List.mem_append_right _ (List.mem_cons_of_mem _ List.mem_cons_self)⟩
    · exact ⟨_, _, _, List.mem_append_right _ List.mem_cons_self⟩
  rcases startup_cases w env o with ⟨h1, -, h3⟩ | ⟨act, h, p, hp, hg, hb, hm, hcase⟩
  · rw [h3]
    exact ⟨by simp, by simp, by simp⟩
  · rcases hcase with ⟨ho, e, hs⟩ | ⟨ho, hgood, m, hs, -, -, hctx⟩ | ⟨ho, e, done, hs, hpre, hno, -⟩
    · rw [hs]
      exact ⟨by simp, by simp, by simp⟩
    · rw [hs, hm]
      refine ⟨List.prefix_refl _, ⟨fun _ => ?_, fun _ => ⟨h, m, rfl⟩⟩, fun _ => ⟨act, rfl, hp, ho⟩⟩
      obtain ⟨a, q, k, hmem⟩ := hlast
      exact ⟨a, q, k, List.mem_cons_of_mem _ hmem⟩
    · rw [hs, hm]
      refine ⟨?_, ⟨?_, ?_⟩, fun _ => ⟨act, rfl, hp, ho⟩⟩
      · exact List.cons_prefix_cons.2 ⟨rfl, hpre⟩
      · rintro ⟨h', m, hh⟩
        cases hh
      · rintro ⟨a, q, k, hmem⟩
        rcases List.mem_cons.1 hmem with hmem | hmem
        · exact absurd hmem.symm (pci_not_broker hp a q k)
        · exact absurd hmem (hno a q k)

/-! ## C133 -/

/-- C133: a daemon that uses TLS gives its user name and password only to a server whose
certificate is for the name that was given and from an authority that the user wants to
be trusted. -/
theorem C133_trusted (w : World α) (env : Cbz.Env) (o : Daemon.Options) (ht : o.disableTls = false) (a : Str) (p k : Int)
    (h : .connectBroker a p k ∈ (startup w env o).1) :
    a = o.brokerAddress ∧ ∃ peer i, w.server a p o.keepalive = some peer ∧ peer.issuer = some i ∧ a ∈ peer.names ∧ Trusts w o i := by
  have hpre := (C134_order w env o).1
  obtain ⟨-, -, -, ha, -, hport, -⟩ := C82_broker env o a p k (hpre.subset h)
  subst ha
  refine ⟨rfl, ?_⟩
  obtain ⟨-, -, -, q, hq, -, peer, hpeer, hi⟩ := (C134_runs w env o).1 ((C134_order w env o).2.1.2 ⟨_, p, k, h⟩)
  have hpq : q = p := by rw [broker_port] at hport hq; rw [hport, hq]
  subst hpq
  obtain ⟨i, h1, h2, h3⟩ := hi ht
  exact ⟨peer, i, hpeer, h1, h2, h3⟩

/-- C133: and a daemon that runs has the user name and the password of the file, trusts
exactly the authorities of the file that was named, or of Python if none was named, and
shows the certificate that was named, if any. -/
theorem C133_session (w : World α) (env : Cbz.Env) (o : Daemon.Options) (h : Handler) (m : Session α)
    (hs : (startup w env o).2 = .running h m) :
    (∀ user pass, m.credentials = some (user, pass) ↔ ∃ text, o.auth = some text ∧ (user, pass) = readAuth env.uni text) ∧
    (m.context.isSome = true ↔ o.disableTls = false) ∧
    ∀ c, m.context = some c →
      (∀ f content, o.ca = some f → f ≠ [] → w.disk f = some (.file content) → c.trusted = w.pem content) ∧
      (¬ Given o.ca → c.trusted = w.store) ∧
      (¬ Given o.clientCert → c.identity = none) ∧
      ∀ x y, o.clientCert = some x → x ≠ [] → o.clientKey = some y →
        ∃ cert key, c.identity = some (cert, key) ∧ w.disk x = some (.file cert) ∧ w.disk y = some (.file key) := by
  rcases startup_cases w env o with ⟨-, -, h3⟩ | ⟨act, h', p, hp, hg, hb, hm, hcase⟩
  · rw [h3] at hs; cases hs
  · rcases hcase with ⟨-, e, hs'⟩ | ⟨ho, hgood, m', hs', hcred, hplain, hctx⟩ | ⟨-, e, done, hs', -⟩
    · rw [hs'] at hs; cases hs
    · rw [hs'] at hs
      injection hs with e1 e2
      subst e1 e2
      refine ⟨?_, ?_, ?_⟩
      · intro user pass
        rw [hcred]
        cases o.auth with
        | none => simp
        | some t => simp [eq_comm]
      · cases ht : o.disableTls with
        | true => simp [hplain ht]
        | false =>
          obtain ⟨c, hc, -⟩ := hctx ht
          simp [hc]
      · intro c hc
        cases ht : o.disableTls with
        | true => rw [hplain ht] at hc; cases hc
        | false =>
          obtain ⟨c', hc', hd, -⟩ := hctx ht
          rw [hc] at hc'
          injection hc' with hc'
          subst hc'
          obtain ⟨⟨k1, k2⟩, k3, k4⟩ := (daemonTls_iff w o hg c).1 hd
          refine ⟨?_, k2, k4, ?_⟩
          · intro f content hf hne hdisk
            obtain ⟨content', j1, j2, -⟩ := k1 f hf hne
            rw [hdisk] at j1
            injection j1 with j1
            injection j1 with j1
            subst j1
            exact j2.symm
          · intro x y hx hne hy
            obtain ⟨r, j1, j2, j3, -⟩ := k3 x y hx hne hy
            exact ⟨r.1, r.2, j1, j2, j3⟩
    · rw [hs'] at hs; cases hs

/-! ## C132 -/

/-- C132: what the documentation of `--broker-ca` promises: with a directory of CA
certificates, all else being good, the daemon connects to a broker whose certificate is
from one of the authorities in it. -/
def C132_claim : Prop :=
  ∀ (w : World Nat) (env : Cbz.Env) (o : Daemon.Options) (d : Str) (entries : List (Str × Bytes)) (act : Act) (p : Int) (peer : Peer Nat)
    (i : Nat),
    (∃ h, (main env o).2 = .running h) → connectPci env o = .ok act → Opens w act → KeysGood w o → BrokerPort o p →
    BrokerAllowed o p → o.disableTls = false → o.ca = some d → d ≠ [] → w.disk d = some (.dir entries) →
    w.server o.brokerAddress p o.keepalive = some peer → peer.issuer = some i → o.brokerAddress ∈ peer.names →
    (∃ e ∈ entries, i ∈ w.pem e.2) → ∃ h m, (startup w env o).2 = .running h m

/-- C132: what happens with any directory: the PCI is opened, and then the daemon ends
with an `OSError`, without having connected to the broker. -/
theorem C132_directory (w : World α) (env : Cbz.Env) (o : Daemon.Options) (d : Str) (entries : List (Str × Bytes)) (act : Act)
    (hr : ∃ h, (main env o).2 = .running h) (ha : connectPci env o = .ok act) (ho : Opens w act)
    (ht : o.disableTls = false) (hc : o.ca = some d) (hd : d ≠ []) (hw : w.disk d = some (.dir entries)) :
    (startup w env o).2 = .failed .ioError ∧ (startup w env o).1.head? = some act ∧
      ∀ a p k, .connectBroker a p k ∉ (startup w env o).1 := by
  have hno : ¬ ∃ h m, (startup w env o).2 = .running h m := by
    rw [C134_runs]
    rintro ⟨-, -, -, p, -, -, peer, -, hi⟩
    obtain ⟨i, -, -, ht1, -⟩ := hi ht
    obtain ⟨content, hcont, -⟩ := ht1 d hc hd
    rw [hw] at hcont
    cases hcont
  have hnb : ∀ a p k, Act.connectBroker a p k ∉ (startup w env o).1 :=
    fun a p k hmem => hno ((C134_order w env o).2.1.2 ⟨a, p, k, hmem⟩)
  rcases startup_cases w env o with ⟨-, h2, -⟩ | ⟨act', h, p, hp, hg, hb, hm, hcase⟩
  · obtain ⟨h, hh⟩ := hr
    exact absurd hh (h2 h)
  · rw [ha] at hp
    injection hp with hp
    subst hp
    rcases hcase with ⟨hno', -⟩ | ⟨-, -, m, hs, -⟩ | ⟨-, e, done, hs, -, -, hlf⟩
    · exact absurd ho hno'
    · exact absurd ⟨h, m, by rw [hs]⟩ hno
    · rcases hlf with ⟨-, -, rfl⟩ | ⟨hc', -⟩
      · exact ⟨by rw [hs], by rw [hs]; rfl, hnb⟩
      · obtain ⟨c, hc'⟩ := hc' ht
        obtain ⟨content, k, -⟩ := ((daemonTls_iff w o hg c).1 hc').1.1 d hc hd
        rw [hw] at k
        cases k

/-- C132: so a container that uses TLS does not run if it has a directory
`/etc/cmqttd/certificates`, which is where its documentation says they are. -/
theorem C132_container (w : World α) (env : Cbz.Env) (files : Args.Files) (glob : Str → List Str) (hg : Globs glob) (e : Entry.Environ)
    (hs : ∀ x ∈ [e.mqttServer, e.timesync, e.mqttPort, e.serialPort, e.cniAddr], ∀ s, setTo x = some s → Simple s)
    (h1 : Given e.mqttServer) (h2 : Given e.serialPort ∨ Given e.cniAddr)
    (port timesync : Int) (hport : Number env.uni 0 (setTo e.mqttPort) port)
    (htime : Number env.uni 300 (setTo e.timesync) timesync)
    (ha : e.auth = true → ∃ t, files.text Entry.authPath = some t)
    (hp : e.project = true → ∃ f, files.binary Entry.projectPath = some f)
    (entries : List (Str × Bytes)) (hd : w.disk Entry.certificatesPath = some (.dir entries)) (he : e.certificates = true)
    (ht : ¬ TurnsOff e.useTls) :
    ∃ argv o, Entry.run glob e = some argv ∧ Args.parse env files argv = .ok o ∧
      (¬ ∃ h m, (startup w env o).2 = .running h m) ∧ ∀ a p k, .connectBroker a p k ∉ (startup w env o).1 := by
  obtain ⟨argv, o, hr, hpar, -, -, -, -, -, -, -, htls, hca, -⟩ :=
    options_given env files glob hg e hs h1 h2 port timesync hport htime ha hp
  have hca' : o.ca = some Entry.certificatesPath := by rw [(hca ht).1, he]; rfl
  have hdis : o.disableTls = false := by
    cases h : o.disableTls with
    | true => exact absurd (htls.1 h) ht
    | false => rfl
  have hno : ¬ ∃ h m, (startup w env o).2 = .running h m := by
    rw [C134_runs]
    rintro ⟨-, -, -, p, -, -, peer, -, hi⟩
    obtain ⟨i, -, -, ht1, -⟩ := hi hdis
    obtain ⟨content, hcont, -⟩ := ht1 _ hca' (by decide)
    rw [hd] at hcont
    cases hcont
  exact ⟨argv, o, hr, hpar, hno, fun a p k hmem => hno ((C134_order w env o).2.1.2 ⟨a, p, k, hmem⟩)⟩

/-- C132: with a file of certificates, or with none named, it is as the documentation says. -/
theorem C132_partial (w : World α) (env : Cbz.Env) (o : Daemon.Options) (act : Act) (p : Int) (peer : Peer α) (i : α)
    (hr : ∃ h, (main env o).2 = .running h) (ha : connectPci env o = .ok act) (ho : Opens w act) (hk : KeysGood w o)
    (hp : BrokerPort o p) (hal : BrokerAllowed o p) (hs : w.server o.brokerAddress p o.keepalive = some peer) (hi : peer.issuer = some i)
    (hn : o.brokerAddress ∈ peer.names)
    (hf : (¬ Given o.ca ∧ i ∈ w.store) ∨ ∃ d content, o.ca = some d ∧ d ≠ [] ∧ w.disk d = some (.file content) ∧ i ∈ w.pem content) :
    ∃ h m, (startup w env o).2 = .running h m := by
  rw [C134_runs]
  refine ⟨hr, ⟨act, ha, ho⟩, fun _ => hk, p, hp, hal, peer, hs, fun _ => ⟨i, hi, hn, ?_, ?_⟩⟩
  · intro d hd hne
    rcases hf with ⟨hf, -⟩ | ⟨d', content, h1, -, h2⟩
    · exact absurd ⟨d, hd, hne⟩ hf
    · rw [hd] at h1
      injection h1 with h1
      subst h1
      exact ⟨content, h2⟩
  · intro hg
    rcases hf with ⟨-, hf⟩ | ⟨d', content, h1, h2, -⟩
    · exact hf
    · exact absurd ⟨d', h1, h2⟩ hg

end

/-- A world with a serial port, a CA file, a directory with it, and a broker. -/
def sampleWorld : World Nat where
  serial _ := .ok ()
  tcp _ _ := .error .ioError
  disk p :=
    if p = "ca.pem".toList then some (.file [7])
    else if p = "/etc/cmqttd/certificates".toList then some (.dir [("ca.pem".toList, [7])])
    else none
  pem c := c.map (·.toNat)
  pair _ _ := true
  store := [1, 2, 3]
  server a p _ := if a = "broker".toList ∧ p = 8883 then some ⟨some 7, ["broker".toList]⟩ else none

/-- The options of a daemon with a serial port that uses TLS. -/
def sampleTls (ca : Option Str) : Daemon.Options :=
  { brokerAddress := "broker".toList, serial := some "/dev/ttyUSB0".toList, ca := ca }

theorem sample_main (ca : Option Str) : (main .ascii (sampleTls ca)).2 = .running ⟨300, true, []⟩ := rfl

theorem sample_server : sampleWorld.server "broker".toList 8883 60 = some ⟨some 7, ["broker".toList]⟩ := by
  simp only [sampleWorld, and_self, if_true]

theorem sample_file : sampleWorld.disk "ca.pem".toList = some (.file [7]) := by
  simp only [sampleWorld, if_true]

theorem sample_dir : sampleWorld.disk "/etc/cmqttd/certificates".toList = some (.dir [("ca.pem".toList, [7])]) := by decide

/-- C132 is false: the directory is taken for a file. -/
theorem C132_false : ¬ C132_claim := by
  intro h
  obtain ⟨x, m, hm⟩ := h sampleWorld .ascii (sampleTls (some "/etc/cmqttd/certificates".toList)) _ _ _ 8883 ⟨some 7, ["broker".toList]⟩ 7
    ⟨_, sample_main _⟩ rfl rfl (fun c k hc => by cases hc) (.inr ⟨rfl, .inr ⟨rfl, rfl⟩⟩) ⟨by decide, by decide, by decide, by decide⟩ rfl rfl
    (by decide) sample_dir
    sample_server rfl List.mem_cons_self ⟨_, List.mem_cons_self, List.mem_cons_self⟩
  have := (C132_directory sampleWorld .ascii (sampleTls (some "/etc/cmqttd/certificates".toList)) _ _ _ ⟨_, sample_main _⟩ rfl rfl rfl rfl
    (by decide) sample_dir).1
  rw [hm] at this
  cases this

/-- With the file it works, and with the authorities of Python this broker is not trusted. -/
example : (∃ h m, (startup sampleWorld .ascii (sampleTls (some "ca.pem".toList))).2 = .running h m) ∧
    ¬ ∃ h m, (startup sampleWorld .ascii (sampleTls none)).2 = .running h m := by
  constructor
  · exact C132_partial sampleWorld .ascii (sampleTls (some "ca.pem".toList)) _ 8883 ⟨some 7, ["broker".toList]⟩ 7
      ⟨_, sample_main _⟩ rfl rfl (fun c k hc => by cases hc) (.inr ⟨rfl, .inr ⟨rfl, rfl⟩⟩)
      ⟨by decide, by decide, by decide, by decide⟩ sample_server rfl List.mem_cons_self
      (.inr ⟨_, [7], rfl, by decide, sample_file, List.mem_cons_self⟩)
  · rw [C134_runs]
    rintro ⟨-, -, -, p, hp, -, peer, hs, hi⟩
    obtain ⟨i, h1, -, -, h2⟩ := hi rfl
    have h3 := h2 (by rintro ⟨s, hs, -⟩; cases hs)
    simp only [sampleWorld] at hs
    split at hs
    · injection hs with hs
      subst hs
      injection h1 with h1
      subst h1
      revert h3
      decide
    · cases hs

end CBus.Props
