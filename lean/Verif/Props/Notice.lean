import Verif.Props.Source

/-! # C124: every message that is received calls a handler -/

namespace CBus.Props
open CBus CBus.Spec
variable {π : Type}

/-- The claim: every whole and valid message that a client receives calls one of its handlers. -/
def C124_claim (π : Type) : Prop :=
  ∀ (now : Nat → PyDateTime) (s : Client) (d : Bytes) (p : Packet), (∀ n, DateTimeOk (now n)) → Up s → d.length ≤ 256 →
    FromPci true true d (some p, d.length) → (∀ b e, p ≠ .invalid b e) →
    eventsOf (feed maxBufferSize (Client.handle (π := π) (Client.baseHook now)) [d] ⟨[], s⟩).2.1 ≠ []

/-- A command for which there is no handler. -/
def Unhandled : SAL → Prop
  | .temperature _ _ | .enableSet _ _ | .statusRequest _ _ _ => True
  | _ => False

/-- A message for which no handler is called: power-up, point to point (with it all status
reports, which are what `on_mmi` is for), device management, and messages to all units with no
commands but temperatures, enable commands and status requests. -/
inductive Unnoticed : Packet → Prop
  | powerOn : Unnoticed .powerOn
  | invalid (b : Bytes) (e : PyErr) : Unnoticed (.invalid b e)
  | pp (p : PP) : Unnoticed (.pp p)
  | dm (p : DM) : Unnoticed (.dm p)
  | pm (p : PM) (h : ∀ s ∈ p.sals, Unhandled s) : Unnoticed (.pm p)

theorem handles_events {m : Manner π} {es : List Event} {k k' : Count} {o : List (Eff π)} (h : Handles m es k o k') :
    eventsOf o = es := by
  have hx : ∀ l : List π, eventsOf (l.map (Eff.ext (π := π))) = [] := by
    intro l
    induction l with
    | nil => rfl
    | cons x l ih => simp only [eventsOf, List.map_cons, List.filterMap_cons] at ih ⊢; rw [ih]
  have ha : ∀ a b : List (Eff π), eventsOf (a ++ b) = eventsOf a ++ eventsOf b := by
    intro a b; simp [eventsOf]
  induction h with
  | nil => rfl
  | clock src es k k' l o _ _ _ ih => show _ :: eventsOf o = _; rw [ih]
  | noClock src es k k' o _ _ ih => show _ :: eventsOf o = _; rw [ih]
  | other e es k k' o _ _ ih =>
    show e :: eventsOf ((m.says e).map Eff.ext ++ o) = _
    rw [ha, hx, List.nil_append, ih]

theorem empty_waits : FromPci true true [] (none, 0) :=
  .waiting [] (by simp) (by simp) (by rintro c s rest h; cases h) (by simp)

/-- What is called for one whole message. -/
theorem C124_called (now : Nat → PyDateTime) (hnow : ∀ n, DateTimeOk (now n)) (s : Client) (hu : Up s) (d : Bytes) (p : Packet)
    (hl : d.length ≤ 256) (h : FromPci true true d (some p, d.length)) :
    eventsOf (feed maxBufferSize (Client.handle (π := π) (Client.baseHook now)) [d] ⟨[], s⟩).2.1 = packetEvents p := by
  obtain ⟨o, k', h1, -⟩ := handles_callAll (follows_base (π := π) now hnow s hu.1) (packetEvents p)
    ⟨s.nextConf, s.clockReads⟩
  have hh : Hears (π := π) ⟨s.handleClock, fun _ => [], now⟩ ([] ++ d) ⟨s.nextConf, s.clockReads⟩ (o ++ []) [] k' (.ok ()) := by
    refine .message _ p d.length _ k' _ o [] [] _ h h1 ?_
    have : ([] ++ d).drop d.length = [] := by simp
    rw [this]
    exact .waits [] k' empty_waits
  have hc := Converses.goesOn (π := π) (m := ⟨s.handleClock, fun _ => [], now⟩) [] ⟨s.nextConf, s.clockReads⟩ k' k' d [] (o ++ []) [] []
    [] (.ok ()) (by simpa using hl) hh (.silence [] k')
  have hf := (C102_protocol (π := π) now hnow s hu [] [d]
    ⟨[], { s with nextConf := k'.codes % 20, clockReads := k'.reads }⟩ _ (.ok ())).2 ⟨k', hc, rfl⟩
  rw [hf, List.append_nil, List.append_nil, handles_events h1]

theorem fromPci_kinds {d : Bytes} {p : Packet} {n : Nat} (h : FromPci true true d (some p, n)) :
    p = .powerOn ∨ p = .pciError ∨ (∃ c ok, p = .confirmation c ok) ∨ (∃ b e, p = .invalid b e) ∨ (∃ q, p = .pm q) ∨
      (∃ q, p = .pp q) ∨ ∃ q, p = .dm q := by
  generalize hr : (some p, n) = r at h
  cases h with
  | powerOn => cases hr; simp
  | error => cases hr; simp
  | confirmed => cases hr; simp
  | refused => cases hr; simp
  | waiting => cases hr
  | empty => cases hr
  | line l rest r hl hh h =>
    cases hr
    cases h with
    | text => simp
    | digits t m hx hm =>
      cases hm with
      | unchecked _ _ hc => cases hc
      | wrong => simp
      | checked m x r _ hz hb =>
        cases hb with
        | type => simp
        | short => simp
        | refused => simp
        | packet flags src d' h p n hpl =>
          rcases payload_plain hpl with ⟨_, rfl⟩ | ⟨_, rfl⟩ | ⟨_, rfl⟩ <;> simp [addressed]

theorem filterMap_unhandled (src : Option Int) (l : List SAL) : l.filterMap (salEvent src) = [] ↔ ∀ s ∈ l, Unhandled s := by
  rw [List.filterMap_eq_nil_iff]
  constructor
  · intro h s hs
    have := h s hs
    cases s <;> simp_all [salEvent, Unhandled]
  · intro h s hs
    have := h s hs
    cases s <;> simp_all [salEvent, Unhandled]

/-- C124, as it is: no handler is called exactly for these. -/
theorem C124_partial (now : Nat → PyDateTime) (hnow : ∀ n, DateTimeOk (now n)) (s : Client) (hu : Up s) (d : Bytes) (p : Packet)
    (hl : d.length ≤ 256) (h : FromPci true true d (some p, d.length)) :
    eventsOf (feed maxBufferSize (Client.handle (π := π) (Client.baseHook now)) [d] ⟨[], s⟩).2.1 = [] ↔ Unnoticed p := by
  rw [C124_called now hnow s hu d p hl h]
  rcases fromPci_kinds h with rfl | rfl | ⟨c, ok, rfl⟩ | ⟨b, e, rfl⟩ | ⟨q, rfl⟩ | ⟨q, rfl⟩ | ⟨q, rfl⟩
  · exact ⟨fun _ => .powerOn, fun _ => rfl⟩
  · exact ⟨fun h => (by cases h), fun h => (by cases h)⟩
  · exact ⟨fun h => (by cases h), fun h => (by cases h)⟩
  · exact ⟨fun _ => .invalid b e, fun _ => rfl⟩
  · refine (filterMap_unhandled q.src q.sals).trans ⟨fun h => .pm q h, fun h => ?_⟩
    cases h
    assumption
  · exact ⟨fun _ => .pp q, fun _ => rfl⟩
  · exact ⟨fun _ => .dm q, fun _ => rfl⟩

/-- C56: the other things that the simulated PCI can say reach the client as well, whatever the client is doing: that
it cannot accept data, and that a command was carried out or not. -/
theorem C56_answers (now : Nat → PyDateTime) (hnow : ∀ n, DateTimeOk (now n)) (v : Server) (hv : v.connected = true)
    (hq : v.queue = []) (s : Client) (hu : Up s) :
    (∃ r, feed maxBufferSize (Client.handle (π := π) (Client.baseHook now)) (sentOf (Server.sendError v).2.1) ⟨[], s⟩ = r ∧
      (Server.sendError v).2.2 = .ok () ∧ eventsOf r.2.1 = [.cannotAcceptData] ∧ r.1 = ⟨[], s⟩ ∧ r.2.2 = .ok ()) ∧
    ∀ (code : UInt8) (more : Bytes) (ok : Bool), 0x67 ≤ code.toNat → code.toNat ≤ 0x7a →
      (∃ r, feed maxBufferSize (Client.handle (π := π) (Client.baseHook now))
          (sentOf (Server.sendConfirmation (code :: more) ok v).2.1) ⟨[], s⟩ = r ∧
        (Server.sendConfirmation (code :: more) ok v).2.2 = .ok () ∧ eventsOf r.2.1 = [.confirmation [code] ok] ∧ r.1 = ⟨[], s⟩ ∧
        r.2.2 = .ok ()) := by
  have key : ∀ (d : Bytes) (p : Packet) (n : Nat) (e : Event), d.length ≤ 256 → FromPci true true d (some p, n) →
      packetEvents p = [e] → (∀ src, e ≠ .clockRequest src) →
      (d.drop n = [] ∨ ∃ m ≠ 0, FromPci true true (d.drop n) (none, m) ∧ (d.drop n).drop m = []) →
      feed maxBufferSize (Client.handle (π := π) (Client.baseHook now)) [d] ⟨[], s⟩ = (⟨[], s⟩, [.event e], .ok ()) := by
    intro d p n e hl hp he hc hr
    have ho : Handles (π := π) ⟨s.handleClock, fun _ => [], now⟩ (packetEvents p) ⟨s.nextConf, s.clockReads⟩ [.event e]
        ⟨s.nextConf, s.clockReads⟩ := by
      rw [he]
      exact .other e [] _ _ [] hc (.nil _)
    have hrest : Hears (π := π) ⟨s.handleClock, fun _ => [], now⟩ (d.drop n) ⟨s.nextConf, s.clockReads⟩ [] []
        ⟨s.nextConf, s.clockReads⟩ (.ok ()) := by
      rcases hr with hr | ⟨m, hm, h1, h2⟩
      · rw [hr]; exact .waits [] _ empty_waits
      · refine .skips _ m _ _ _ _ _ h1 hm ?_
        rw [h2]; exact .waits [] _ empty_waits
    have hh : Hears (π := π) ⟨s.handleClock, fun _ => [], now⟩ ([] ++ d) ⟨s.nextConf, s.clockReads⟩ ([.event e] ++ []) []
        ⟨s.nextConf, s.clockReads⟩ (.ok ()) := .message _ p n _ _ _ _ _ _ _ hp ho hrest
    have hcv := Converses.goesOn (π := π) (m := ⟨s.handleClock, fun _ => [], now⟩) [] ⟨s.nextConf, s.clockReads⟩ _ _ d [] _ [] []
      [] (.ok ()) (by simpa using hl) hh (.silence [] _)
    refine (C102_protocol (π := π) now hnow s hu [] [d] ⟨[], s⟩ _ (.ok ())).2 ⟨⟨s.nextConf, s.clockReads⟩, hcv, ?_⟩
    show s = { s with nextConf := s.nextConf % 20, clockReads := s.clockReads }
    rw [Nat.mod_eq_of_lt hu.2]
  refine ⟨?_, ?_⟩
  · have he : Server.sendError v = ({ v with queue := [] }, [.write [0x21, 0x0d, 0x0a]], .ok ()) := by
      simp only [Server.sendError, Server.send, Server.serialize, Packet.encodePacket, Server.writeOut, hv, if_true, hq]
      rfl
    rw [he]
    refine ⟨_, rfl, ?_⟩
    show _ ∧ eventsOf (feed _ _ [[0x21, 0x0d, 0x0a]] _).2.1 = _ ∧ (feed _ _ [[0x21, 0x0d, 0x0a]] _).1 = _ ∧
      (feed _ _ [[0x21, 0x0d, 0x0a]] _).2.2 = _
    rw [key [0x21, 0x0d, 0x0a] .pciError 1 .cannotAcceptData (by decide) (.error _) rfl (by simp)
      (.inr ⟨2, by decide, .empty [], rfl⟩)]
    exact ⟨rfl, rfl, rfl, rfl⟩
  · intro code more ok h1 h2
    have hc : code ∈ confirmationCodes := (C37_codes code).2 ⟨h1, h2⟩
    have he : Server.sendConfirmation (code :: more) ok v =
        ({ v with queue := [] }, [.write [code, if ok then 0x2e else 0x23]], .ok ()) := by
      simp only [Server.sendConfirmation, (C37_first_character code hc more ok).1]
      simp only [Server.send, Server.serialize, Packet.encodePacket, Server.writeOut, hv, if_true, hq]
      rfl
    rw [he]
    refine ⟨_, rfl, ?_⟩
    show _ ∧ eventsOf (feed _ _ [[code, if ok then 0x2e else 0x23]] _).2.1 = _ ∧
      (feed _ _ [[code, if ok then 0x2e else 0x23]] _).1 = _ ∧ (feed _ _ [[code, if ok then 0x2e else 0x23]] _).2.2 = _
    have hp : FromPci true true [code, if ok then 0x2e else 0x23] (some (.confirmation [code] ok), 2) := by
      cases ok with
      | true => exact .confirmed code [] ⟨h1, h2⟩
      | false => exact .refused code 0x23 [] ⟨h1, h2⟩ (by decide)
    rw [key _ _ 2 (.confirmation [code] ok) (by simp) hp rfl (by simp) (.inl rfl)]
    exact ⟨rfl, rfl, rfl, rfl⟩

example : sentOf (Server.sendError { connected := true }).2.1 = [ascii "!\r\n"] ∧
    sentOf (Server.sendConfirmation (ascii "hx") false { connected := true }).2.1 = [ascii "h#"] := by decide +kernel

/-- A message of two commands, and the calls that are made for it. -/
example : eventsOf (feed maxBufferSize (Client.handle (π := Unit) (Client.baseHook fun _ => someTime))
    [ascii "05053800790A010B2F\r\n"] ⟨[], { connected := true }⟩).2.1 =
    [.lightingOn (some 5) 10, .lightingOff (some 5) 11] := by decide +kernel

/-- A status report of the lighting application (from the tests of the code). -/
def statusLine : Bytes := ascii "86999900F9003800A8AA0200000000000000000000000000000000000000C3\r\n"

theorem statusLine_read : ∃ q, FromPci true true statusLine (some (.pp q), statusLine.length) ∧ q.cals.length = 1 := by
  have h : (match decodePacket statusLine true true true with
      | .ok (some (.pp q), n) => decide (n = statusLine.length) && decide (q.cals.length = 1)
      | _ => false) = true := by decide +kernel
  split at h
  · rename_i q n hq
    simp only [Bool.and_eq_true, decide_eq_true_eq] at h
    obtain ⟨rfl, h2⟩ := h
    exact ⟨q, (C98_received _ _ _ _ _).1 hq, h2⟩
  · cases h

/-- C124 is false: nothing is called for a status report. -/
theorem C124_false : ¬ C124_claim π := by
  intro h
  obtain ⟨q, h1, -⟩ := statusLine_read
  exact h (fun _ => someTime) { connected := true } statusLine (.pp q) (fun _ => someTime_ok) ⟨rfl, by decide⟩
    (by decide) h1 (by simp) ((C124_partial _ (fun _ => someTime_ok) _ ⟨rfl, by decide⟩ _ _ (by decide) h1).2 (.pp q))

end CBus.Props
