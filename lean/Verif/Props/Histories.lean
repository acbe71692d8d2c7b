import Verif.Lemmas.Trace
import Verif.Props.Discovery
import Verif.Spec.Life

/-! # C43, C90: histories of the daemon, and losing the connection -/

namespace CBus.Props
open CBus CBus.Spec

/-! ## Relations that hold of everything a client does -/

section ClientRel
variable {π : Type}

/-- A relation that holds of everything a `PCIProtocol` does between being connected and
losing the connection. -/
structure ClientRel (T : Client → List (Eff π) → Client → Prop) : Prop extends TraceRel T where
  send : ∀ p b, Keeps T (Client.send p b)
  read : ∀ s, T s [] { s with clockReads := s.clockReads + 1 }
  event : ∀ s e, T s [.event e] s

namespace ClientRel
variable {T : Client → List (Eff π) → Client → Prop} (hT : ClientRel T)
include hT

theorem sendSals (x : Py (List SAL)) : Keeps T (Client.sendSals x) := by
  intro s
  unfold Client.sendSals
  repeat' split
  · exact hT.nil s
  · exact hT.nil s
  · exact hT.send _ _ s

theorem clockDatetime (now : Nat → PyDateTime) (w : Option PyDateTime) : Keeps T (Client.clockDatetime now w) := by
  intro s
  unfold Client.clockDatetime
  split
  · exact hT.sendSals _ s
  · have := hT.append (hT.read s) (hT.sendSals (.ok (clockUpdateSal (now s.clockReads))) { s with clockReads := s.clockReads + 1 })
    simpa using this

theorem lightingMany (mk : Int → Py SAL) (gas : List Int) : Keeps T (Client.lightingMany mk gas) := by
  intro s
  unfold Client.lightingMany
  split
  · exact hT.nil s
  · exact hT.sendSals _ s

theorem runCall (now : Nat → PyDateTime) (c : ClientCall) : Keeps T (runCall now c) := by
  cases c with
  | on g => exact hT.lightingMany _ _
  | off g => exact hT.lightingMany _ _
  | terminate g => exact hT.lightingMany _ _
  | ramp g d l => exact hT.sendSals _
  | identify u a =>
    intro s
    simp only [Props.runCall, Client.identify]
    split
    · exact hT.nil s
    · exact hT.send _ _ s
  | clock t => exact hT.clockDatetime _ _
  | clockNow => exact hT.clockDatetime _ _

theorem pciReset : Keeps T (Client.pciReset (π := π)) := by
  unfold Client.pciReset
  exact Keeps.andThen hT.toTraceRel (hT.send _ _) fun _ => Keeps.andThen hT.toTraceRel (hT.send _ _) fun _ =>
    Keeps.andThen hT.toTraceRel (hT.send _ _) fun _ => Keeps.andThen hT.toTraceRel (hT.send _ _) fun _ =>
    Keeps.andThen hT.toTraceRel (hT.send _ _) fun _ => Keeps.andThen hT.toTraceRel (hT.send _ _) fun _ =>
    Keeps.pure hT.toTraceRel ()

theorem baseHook (now : Nat → PyDateTime) (e : Event) : Keeps T (Client.baseHook now e) := by
  intro s
  unfold Client.baseHook
  repeat' split
  · exact Keeps.andThen hT.toTraceRel (hT.clockDatetime now none) (fun _ => Keeps.pure hT.toTraceRel ()) s
  · exact hT.nil s
  · exact hT.nil s

theorem dataReceived {hook : Event → Proc Client (Eff π) Unit} (hh : ∀ e, Keeps T (hook e)) (d : Bytes) (c : Conn Client) :
    T c.st (Client.dataReceived hook d c).2.1 (Client.dataReceived hook d c).1.st := by
  have hcall : ∀ e, Keeps T (Client.call hook e) := fun e =>
    Keeps.andThen hT.toTraceRel (fun s => hT.event s e) fun _ => hh e
  have hsal : ∀ src x, Keeps T (Client.onSal hook src x) := by
    intro src x
    cases x <;> first | exact hcall _ | exact Keeps.pure hT.toTraceRel ()
  have hsals : ∀ src l, Keeps T (Client.onSals hook src l) := by
    intro src l
    induction l with
    | nil => exact Keeps.pure hT.toTraceRel ()
    | cons x l ih => exact Keeps.andThen hT.toTraceRel (hsal src x) fun _ => ih
  have hp : ∀ p, Keeps T (Client.onPacket hook p) := by
    intro p
    cases p <;> first | exact hsals _ _ | exact hcall _ | exact Keeps.pure hT.toTraceRel ()
  exact Keeps.dataReceived hT.toTraceRel (fun b => Keeps.handleData hT.toTraceRel (fun _ => Keeps.pure hT.toTraceRel ()) hp b) _ d c

end ClientRel
end ClientRel

/-- … and of what the daemon's `CBusHandler` does. -/
structure DaemonRel (T : Client → List (Eff MqttEff) → Client → Prop) : Prop extends ClientRel T where
  ext : ∀ s x, T s [.ext x] s

namespace DaemonRel
variable {T : Client → List (Eff MqttEff) → Client → Prop} (hT : DaemonRel T)
include hT

theorem exts (l : List MqttEff) (s : Client) : T s (l.map .ext) s := by
  induction l with
  | nil => exact hT.nil s
  | cons x l ih => exact hT.append (hT.ext s x) ih

theorem publishes {m : Mqtt.Act} (e : Event) (h : ∀ s, m s = (s, (eventMessages e).map .ext, .ok ())) : Keeps T m := by
  intro s
  rw [h s]
  exact hT.exts _ s

theorem cbusHook (now : Nat → PyDateTime) (e : Event) : Keeps T (Mqtt.cbusHook now e) := by
  by_cases he : ∀ src, e ≠ .clockRequest src
  · intro s
    rw [C62_event now e he s]
    show T s (if _ then _ else _) s
    split
    · exact hT.exts _ s
    · exact hT.nil s
  · simp only [Classical.not_forall, Classical.not_not] at he
    obtain ⟨src, rfl⟩ := he
    exact Keeps.andThen hT.toTraceRel (hT.clockDatetime now none) fun _ => Keeps.pure hT.toTraceRel ()

theorem onMessage (u : UniTable) (loads : Bytes → Option JVal) (topic : Str) (payload : Bytes) :
    Keeps T (Mqtt.onMessage u loads topic payload) := by
  have act : ∀ ga on b t, Keeps T (Mqtt.actOnPayload ga on b t) := by
    intro ga on b t
    unfold Mqtt.actOnPayload
    repeat' split
    · exact Keeps.andThen hT.toTraceRel (hT.lightingMany _ _) fun _ => hT.publishes _ (publish_on none ga)
    · exact Keeps.andThen hT.toTraceRel (hT.sendSals _) fun _ => hT.publishes _ (publish_ramp none ga t b)
    · exact Keeps.andThen hT.toTraceRel (hT.lightingMany _ _) fun _ => hT.publishes _ (publish_off none ga)
  unfold Mqtt.onMessage
  repeat' split
  all_goals first
    | exact act _ _ _ _
    | exact Keeps.pure hT.toTraceRel ()
    | exact fun s => hT.nil s

end DaemonRel

/-! ## Histories of the daemon -/

/-- One step; the event loop copes with any exception. -/
def daemonStep (u : UniTable) (loads : Bytes → Option JVal) (now : Nat → PyDateTime) :
    DaemonStep → Conn Client → Conn Client × List (Eff MqttEff)
  | .made, c => onConn Client.connectionMade c
  | .lost, c => onConn Client.connectionLost c
  | .receive d, c => ((Client.dataReceived (Mqtt.cbusHook now) d c).1, (Client.dataReceived (Mqtt.cbusHook now) d c).2.1)
  | .tick, c => onConn (Client.clockDatetime now none) c
  | .broker labels, c => onConn (Mqtt.onConnect labels) c
  | .message topic payload, c => onConn (Mqtt.onMessage u loads topic payload) c

/-- A history: everything it did. -/
def daemonSteps (u : UniTable) (loads : Bytes → Option JVal) (now : Nat → PyDateTime) :
    List DaemonStep → Conn Client → Conn Client × List (Eff MqttEff)
  | [], c => (c, [])
  | x :: xs, c =>
    let r := daemonStep u loads now x c
    let r' := daemonSteps u loads now xs r.1
    (r'.1, r.2 ++ r'.2)

/-! ## C43 for the daemon -/

/-- The codes cycle. -/
def CycleRel {π : Type} (s : Client) (o : List (Eff π)) (s' : Client) : Prop :=
  s.nextConf < 20 → CycleStep s.nextConf o s'.nextConf

theorem cycleRel {π : Type} : ClientRel (π := π) CycleRel where
  nil := fun _ hk => .nil hk
  append := fun h1 h2 hk => (h1 hk).append (h2 (h1 hk).lt)
  send := fun p b s => Cycles.send p b s
  read := fun _ hk => .nil hk
  event := fun s e hk => ⟨0, rfl, by omega⟩

theorem daemon_cycleRel : DaemonRel CycleRel where
  toClientRel := cycleRel
  ext := fun s e hk => ⟨0, rfl, by omega⟩

theorem daemonStep_cycles (u : UniTable) (loads : Bytes → Option JVal) (now : Nat → PyDateTime) (x : DaemonStep) (c : Conn Client) :
    CycleRel c.st (daemonStep u loads now x c).2 (daemonStep u loads now x c).1.st := by
  cases x with
  | made => exact Cycles.connectionMade c.st
  | lost => exact Cycles.connectionLost c.st
  | receive d => exact daemon_cycleRel.dataReceived (daemon_cycleRel.cbusHook now) d c
  | tick => exact daemon_cycleRel.clockDatetime now none c.st
  | broker labels =>
    simp only [daemonStep, onConn, C66_connect]
    exact daemon_cycleRel.exts (_ :: _) c.st
  | message topic payload => exact daemon_cycleRel.onMessage u loads topic payload c.st

/-- C43 for `cmqttd`: over any history – connections to the PCI and to the broker,
messages, clock updates, bytes from the PCI, in any order, with or without exceptions –
the codes written are `hijklmnopqrstuvwxyzg` over and over. -/
theorem C43_daemon (u : UniTable) (loads : Bytes → Option JVal) (now : Nat → PyDateTime) (xs : List DaemonStep) (c : Conn Client)
    (h0 : c.st.nextConf = 0) :
    let codes := codesOf (daemonSteps u loads now xs c).2
    codes = cycleFrom 0 codes.length := by
  have key : ∀ (xs : List DaemonStep) (c : Conn Client), CycleRel c.st (daemonSteps u loads now xs c).2 (daemonSteps u loads now xs c).1.st := by
    intro xs
    induction xs with
    | nil => intro c; exact cycleRel.nil _
    | cons x xs ih =>
      intro c
      exact cycleRel.append (daemonStep_cycles u loads now x c) (ih _)
  obtain ⟨n, h1, -⟩ := key xs c (by omega)
  intro codes
  have : codes = cycleFrom c.st.nextConf n := h1
  rw [this, h0]
  simp [cycleFrom]

example : codesOf (daemonSteps .ascii (fun _ => some (onWith 300)) (fun _ => ⟨⟨2024, 1, 1⟩, ⟨0, 0, 0, 0⟩⟩)
    [.message "homeassistant/light/cbus_7/set".toList [], .made, .tick, .message "homeassistant/light/cbus_7/set".toList [],
      .receive (ascii "0505DF00110303\r\n"), .lost, .tick, .made] ⟨[], {}⟩).2 = ascii "hijklmnop" := by decide +kernel

/-! ## C90 -/

/-- C90 in full: however the object was created, losing the connection makes it forget
the transport, resolves the future, if there is one, and raises nothing. -/
def C90_claim : Prop :=
  ∀ s : Client, (s.future = .absent ∨ s.future = .pending) →
    (Client.connectionLost (π := Unit) s).2.2 = .ok () ∧ (Client.connectionLost (π := Unit) s).1.connected = false ∧
    (s.future = .pending → (Client.connectionLost (π := Unit) s).1.future = .done)

/-- C90 is false: the argument `connection_lost_future` is optional, but without it the
method calls `None.set_result`. -/
theorem C90_false : ¬ C90_claim := by
  intro h
  have := (h {} (.inl rfl)).1
  revert this
  decide +kernel

/-- Nothing else touches the transport or the future, and nothing is written without a
transport. -/
def LinkRel {π : Type} (s : Client) (o : List (Eff π)) (s' : Client) : Prop :=
  s'.connected = s.connected ∧ s'.future = s.future ∧ (s.connected = false → writesOf o = [])

theorem linkRel {π : Type} : ClientRel (π := π) LinkRel where
  nil := fun _ => ⟨rfl, rfl, fun _ => rfl⟩
  append := fun h1 h2 => ⟨h2.1.trans h1.1, h2.2.1.trans h1.2.1, fun h => by
    rw [writesOf_append, h1.2.2 h, h2.2.2 (h1.1.trans h)]; rfl⟩
  send := fun p b s => by
    unfold Client.send Proc.andThen Client.getConfirmationCode
    split
    · rename_i hc
      repeat' split
      all_goals first
        | exact ⟨rfl, rfl, fun h => absurd (hc.symm.trans h) (by decide)⟩
        | (rename_i h; split at h <;> cases h <;> exact ⟨rfl, rfl, fun h => absurd (hc.symm.trans h) (by decide)⟩)
    · exact ⟨rfl, rfl, fun _ => rfl⟩
  read := fun _ => ⟨rfl, rfl, fun _ => rfl⟩
  event := fun _ _ => ⟨rfl, rfl, fun _ => rfl⟩

theorem daemon_linkRel : DaemonRel LinkRel where
  toClientRel := linkRel
  ext := fun _ _ => ⟨rfl, rfl, fun _ => rfl⟩

/-- Steps that are neither a new connection to the PCI nor its loss. -/
def _root_.CBus.Spec.DaemonStep.Between (x : DaemonStep) : Prop := x ≠ .made ∧ x ≠ .lost

theorem between_linkRel (u : UniTable) (loads : Bytes → Option JVal) (now : Nat → PyDateTime) (x : DaemonStep) (hx : x.Between)
    (c : Conn Client) : LinkRel c.st (daemonStep u loads now x c).2 (daemonStep u loads now x c).1.st := by
  cases x with
  | made => exact absurd rfl hx.1
  | lost => exact absurd rfl hx.2
  | receive d => exact daemon_linkRel.dataReceived (daemon_linkRel.cbusHook now) d c
  | tick => exact daemon_linkRel.clockDatetime now none c.st
  | broker labels =>
    simp only [daemonStep, onConn, C66_connect]
    exact ⟨rfl, rfl, fun _ => writesOf_ext (_ :: _)⟩
  | message topic payload => exact daemon_linkRel.onMessage u loads topic payload c.st

theorem made_link {π : Type} (s : Client) :
    (Client.connectionMade (π := π) s).1.future = s.future := by
  have h := linkRel.pciReset (π := π) { s with connected := true }
  unfold Client.connectionMade Proc.andThen Proc.modify
  simp only
  generalize Client.pciReset { s with connected := true } = r at h ⊢
  obtain ⟨s1, o1, r1⟩ := r
  cases r1 with
  | error e => exact h.2.1
  | ok a =>
    simp only
    split <;> exact h.2.1

/-- C90 for an object with a future, as in all programs of the project: over every
history of the daemon the future is resolved exactly when the connection has been lost,
never before, and losing it the first time raises nothing.

What is missing: objects without a future, see `C90_false`. -/
theorem C90_resolved_partial (u : UniTable) (loads : Bytes → Option JVal) (now : Nat → PyDateTime) (xs : List DaemonStep)
    (c : Conn Client) (hf : c.st.future = .pending) :
    let r := daemonSteps u loads now xs c
    (.lost ∈ xs → r.1.st.future = .done) ∧
    (.lost ∉ xs → r.1.st.future = .pending ∧ (Client.connectionLost (π := MqttEff) r.1.st).2.2 = .ok ()) := by
  have step : ∀ x c, (x ≠ .lost → (daemonStep u loads now x c).1.st.future = c.st.future) ∧
      (x = .lost → c.st.future ≠ .absent → (daemonStep u loads now x c).1.st.future = .done) := by
    intro x c
    refine ⟨fun hx => ?_, ?_⟩
    · by_cases hm : x = .made
      · subst hm; exact made_link c.st
      · exact (between_linkRel u loads now x ⟨hm, hx⟩ c).2.1
    · rintro rfl h
      simp only [daemonStep, onConn, Client.connectionLost]
      cases hs : c.st.future with
      | absent => exact absurd hs h
      | pending => rfl
      | done => rfl
  have done : ∀ (xs : List DaemonStep) (c : Conn Client), c.st.future = .done → (daemonSteps u loads now xs c).1.st.future = .done := by
    intro xs
    induction xs with
    | nil => intro c h; exact h
    | cons x xs ih =>
      intro c h
      refine ih _ ?_
      by_cases hx : x = .lost
      · exact (step x c).2 hx (by rw [h]; decide)
      · rw [(step x c).1 hx, h]
  intro r
  have main : ∀ (xs : List DaemonStep) (c : Conn Client), c.st.future = .pending →
      (.lost ∈ xs → (daemonSteps u loads now xs c).1.st.future = .done) ∧
      (.lost ∉ xs → (daemonSteps u loads now xs c).1.st.future = .pending) := by
    intro xs
    induction xs with
    | nil => intro c h; exact ⟨fun hn => absurd hn (by simp), fun _ => h⟩
    | cons x xs ih =>
      intro c h
      by_cases hx : x = .lost
      · refine ⟨fun _ => done xs _ ((step x c).2 hx (by rw [h]; decide)), fun hn => ?_⟩
        subst hx
        exact absurd (List.mem_cons_self ..) hn
      · have hi := ih _ (((step x c).1 hx).trans h)
        refine ⟨fun hm => hi.1 ?_, fun hn => hi.2 fun hm => hn (List.mem_cons_of_mem _ hm)⟩
        rcases List.mem_cons.1 hm with hm | hm
        · exact absurd hm.symm hx
        · exact hm
  have hm := main xs c hf
  refine ⟨hm.1, fun hn => ⟨hm.2 hn, ?_⟩⟩
  have h1 := hm.2 hn
  change r.1.st.future = .pending at h1
  unfold Client.connectionLost
  rw [h1]

/-- C90: from the loss of the connection until the next one nothing is written,
whatever happens; in whatever way the object was created. -/
theorem C90_silent (u : UniTable) (loads : Bytes → Option JVal) (now : Nat → PyDateTime) (xs : List DaemonStep)
    (hx : .made ∉ xs) (c : Conn Client) :
    let r := daemonStep u loads now .lost c
    r.2 = [] ∧ r.1.st.connected = false ∧ writesOf (daemonSteps u loads now xs r.1).2 = [] ∧
      (daemonSteps u loads now xs r.1).1.st.connected = false := by
  have key : ∀ (xs : List DaemonStep), .made ∉ xs → ∀ c : Conn Client, c.st.connected = false →
      writesOf (daemonSteps u loads now xs c).2 = [] ∧ (daemonSteps u loads now xs c).1.st.connected = false := by
    intro xs
    induction xs with
    | nil => intro _ c h; exact ⟨rfl, h⟩
    | cons x xs ih =>
      intro hn c h
      have h1 : writesOf (daemonStep u loads now x c).2 = [] ∧ (daemonStep u loads now x c).1.st.connected = false := by
        by_cases hl : x = .lost
        · subst hl
          simp only [daemonStep, onConn, Client.connectionLost]
          split <;> exact ⟨rfl, rfl⟩
        · have := between_linkRel u loads now x ⟨fun hm => hn (by rw [hm]; exact List.mem_cons_self ..), hl⟩ c
          exact ⟨this.2.2 h, this.1.trans h⟩
      have h2 := ih (fun hm => hn (List.mem_cons_of_mem _ hm)) _ h1.2
      exact ⟨by simp only [daemonSteps, writesOf_append, h1.1, h2.1, List.append_nil], h2.2⟩
  have hl : (daemonStep u loads now .lost c).2 = [] ∧ (daemonStep u loads now .lost c).1.st.connected = false := by
    simp only [daemonStep, onConn, Client.connectionLost]
    split <;> exact ⟨rfl, rfl⟩
  exact ⟨hl.1, hl.2, key xs hx _ hl.2⟩

example :
    let r := daemonSteps .ascii (fun _ => some (onWith 300)) (fun _ => ⟨⟨2024, 1, 1⟩, ⟨0, 0, 0, 0⟩⟩)
      [.made, .tick, .lost, .tick, .message "homeassistant/light/cbus_7/set".toList [], .receive (ascii "0505DF00110303\r\n")]
      ⟨[], { future := .pending }⟩
    r.1.st.future = .done ∧ (writesOf r.2).length = 7 := by decide +kernel

end CBus.Props
