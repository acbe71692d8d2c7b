import Verif.Model.Log
import Verif.Spec.Log
import Verif.Spec.Session
import Verif.Props.Repr
import Verif.Props.ClientEvents
import Verif.Lemmas.Server

/-! C159: the log tells what was received. -/

namespace CBus.Props

open CBus CBus.Spec

/-! ## Lines that are the same tell the same -/

/-- A character of a number or of `None`. -/
def wordChar (c : Char) : Bool := c.isAlphanum || c = '-'

/-- What comes next is no part of the word. -/
def Stops (r : Str) : Prop := ∀ c ∈ r.head?, wordChar c = false

theorem word_split : ∀ {x y r r' : Str}, (∀ c ∈ x, wordChar c = true) → (∀ c ∈ y, wordChar c = true) → Stops r → Stops r' →
    x ++ r = y ++ r' → x = y ∧ r = r'
  | [], [], _, _, _, _, _, _, h => ⟨rfl, h⟩
  | [], b :: y, _, _, _, hy, hr, _, h => by
    simp only [List.nil_append, List.cons_append] at h
    subst h
    exact absurd (hr b (by simp)) (by simp [hy b (by simp)])
  | a :: x, [], _, _, hx, _, _, hr, h => by
    simp only [List.nil_append, List.cons_append] at h
    subst h
    exact absurd (hr a (by simp)) (by simp [hx a (by simp)])
  | a :: x, b :: y, _, _, hx, hy, hr, hr', h => by
    simp only [List.cons_append, List.cons.injEq] at h
    obtain ⟨h1, h2⟩ := word_split (fun c hc => hx c (by simp [hc])) (fun c hc => hy c (by simp [hc])) hr hr' h.2
    exact ⟨by rw [h.1, h1], h2⟩

theorem stops_nil : Stops [] := by intro c hc; simp at hc

theorem stops_lit {s : String} (h : (Repr.lit s).head?.any (fun c => !wordChar c) = true) {t : Str} : Stops (Repr.lit s ++ t) := by
  cases hs : Repr.lit s with
  | nil => simp [hs] at h
  | cons c u =>
    intro d hd
    simp only [List.cons_append, List.head?_cons, Option.mem_def, Option.some.injEq] at hd
    subst hd
    simpa [hs] using h

theorem digit_word {c : Char} (h : (48 ≤ c.toNat ∧ c.toNat ≤ 57) ∨ c = '-') : wordChar c = true := by
  rcases h with h | rfl
  · simp only [wordChar, Char.isAlphanum, Char.isDigit, Bool.or_eq_true, Bool.and_eq_true, decide_eq_true_eq]
    refine .inl (.inr ⟨?_, ?_⟩)
    · show (48 : UInt32).toNat ≤ c.val.toNat; exact h.1
    · show c.val.toNat ≤ (57 : UInt32).toNat; exact h.2
  · decide

theorem int_word {a b : Int} {r r' : Str} (hr : Stops r) (hr' : Stops r') (h : intStr a ++ r = intStr b ++ r') : a = b ∧ r = r' := by
  obtain ⟨h1, h2⟩ := word_split (fun c hc => digit_word (intStr_char a c hc)) (fun c hc => digit_word (intStr_char b c hc)) hr hr' h
  exact ⟨intStr_inj h1, h2⟩

theorem optInt_chars (a : Option Int) : ∀ c ∈ Repr.optInt a, wordChar c = true := by
  intro c hc
  cases a with
  | none => exact (by decide +kernel : ∀ c ∈ Repr.lit "None", wordChar c = true) c hc
  | some i => exact digit_word (intStr_char i c hc)

theorem optInt_word {a b : Option Int} {r r' : Str} (hr : Stops r) (hr' : Stops r')
    (h : Repr.optInt a ++ r = Repr.optInt b ++ r') : a = b ∧ r = r' := by
  obtain ⟨h1, h2⟩ := word_split (optInt_chars a) (optInt_chars b) hr hr' h
  refine ⟨?_, h2⟩
  exact (reads_optInt a b [')'] [')'] (ends_lit (by decide)) (ends_lit (by decide)) (by rw [h1])).1

theorem stops_space {s : String} {t : Str} (h : (Repr.lit s).head? = some ' ' := by decide +kernel) : Stops (Repr.lit s ++ t) :=
  stops_lit (by rw [h]; rfl)

theorem stops_comma {s : String} {t : Str} (h : (Repr.lit s).head? = some ',' := by decide +kernel) : Stops (Repr.lit s ++ t) :=
  stops_lit (by rw [h]; rfl)

theorem stops_dot {t : Str} : Stops (Repr.lit ".00" ++ t) := stops_lit (by decide +kernel)

theorem bool_inj {a b : Bool} (h : Repr.bool a = Repr.bool b) : a = b := by
  revert h; cases a <;> cases b <;> decide +kernel

theorem int_inj' {a b : Int} {r : Str} (h : intStr a ++ r = intStr b ++ r) : a = b := intStr_inj (List.append_cancel_right h)

/-- The level of a ramp is a whole number, as of every ramp that is received. -/
def WholeEvent : Event → Prop
  | .lightingRamp _ _ _ l => ∃ n : Int, l = .int n
  | _ => True

/-- The same, in a simulated PCI. -/
def WholeSEvent : SEvent → Prop
  | .lightingRamp _ _ l => ∃ n : Int, l = .int n
  | _ => True

/-- C159: events of a client with the same line are the same event. -/
theorem C159_event (e e' : Log.Env) (a b : Event) (ha : WholeEvent a) (hb : WholeEvent b)
    (h : Log.event e a = Log.event e' b) : a = b := by
  cases a <;> cases b <;> simp only [Log.event, List.append_assoc] at h <;> first
    | rfl
    | exact absurd h (differ (by decide +kernel))
    | exact absurd h.symm (differ (by decide +kernel))
    | (rw [← List.append_nil (Repr.lit "recv: PCI cannot accept data")] at h; exact absurd h (differ (by decide +kernel)))
    | (replace h := List.append_cancel_left h)
  · obtain ⟨rfl, h1⟩ := reads_bytes _ _ _ _ h
    rw [bool_inj (List.append_cancel_left h1)]
  · obtain ⟨n, rfl⟩ := ha
    obtain ⟨n', rfl⟩ := hb
    obtain ⟨rfl, h1⟩ := optInt_word stops_space stops_space h
    obtain ⟨rfl, h2⟩ := int_word stops_comma stops_comma (List.append_cancel_left h1)
    obtain ⟨rfl, h3⟩ := int_word stops_space stops_space (List.append_cancel_left h2)
    rw [int_inj' (List.append_cancel_left h3)]
  · obtain ⟨rfl, h1⟩ := optInt_word stops_space stops_space h
    rw [intStr_inj (List.append_cancel_left h1)]
  · obtain ⟨rfl, h1⟩ := optInt_word stops_space stops_space h
    rw [intStr_inj (List.append_cancel_left h1)]
  · obtain ⟨rfl, h1⟩ := optInt_word stops_space stops_space h
    rw [intStr_inj (List.append_cancel_left h1)]
  · rw [(optInt_word stops_nil stops_nil (congrArg (· ++ ([] : Str)) h)).1]
  · obtain ⟨rfl, h1⟩ := optInt_word stops_space stops_space h
    rw [(reads_clock _ _ [] [] (congrArg (· ++ ([] : Str)) (List.append_cancel_left h1))).1]

/-- C159: events of a simulated PCI with the same line are the same event. -/
theorem C159_server_event (e e' : Log.Env) (a b : SEvent) (ha : WholeSEvent a) (hb : WholeSEvent b)
    (h : Log.serverEvent e a = Log.serverEvent e' b) : a = b := by
  have key : ∀ {s : String} {t : Str}, ((Repr.lit s).isPrefixOf t || t.isPrefixOf (Repr.lit s)) = false → ∀ r, Repr.lit s ≠ t ++ r :=
    fun h _ he => differ (r := []) h (by rw [List.append_nil]; exact he)
  cases a <;> cases b <;> simp only [Log.serverEvent, List.append_assoc] at h <;> first
    | rfl
    | exact absurd h (differ (by decide +kernel))
    | exact absurd h (key (by decide +kernel) _)
    | exact absurd h.symm (key (by decide +kernel) _)
    | exact absurd h (by decide +kernel)
    | (replace h := List.append_cancel_left h)
  · obtain ⟨n, rfl⟩ := ha
    obtain ⟨n', rfl⟩ := hb
    simp only [Log.percent, List.append_assoc] at h
    obtain ⟨rfl, h1⟩ := int_word stops_comma stops_comma h
    obtain ⟨rfl, h2⟩ := int_word stops_space stops_space (List.append_cancel_left h1)
    have := int_inj' (List.append_cancel_left h2)
    rw [show n = n' by omega]
  · rw [intStr_inj h]
  · rw [intStr_inj h]
  · rw [intStr_inj h]
  · rw [(reads_clock _ _ [] [] (congrArg (· ++ ([] : Str)) h)).1]
  · rw [intStr_inj h]

/-! ## The lines of a packet -/

theorem tells_lit {s : String} (h : RecvLine (Repr.lit s) = true) (t : Str) : RecvLine (Repr.lit s ++ t) = true := by
  simp only [RecvLine, List.isPrefixOf_iff_prefix] at h ⊢
  exact h.trans (List.prefix_append _ _)

theorem quiet_lit {s : String} (h : ("recv: ".toList.isPrefixOf (Repr.lit s) || (Repr.lit s).isPrefixOf "recv: ".toList) = false)
    (t : Str) : RecvLine (Repr.lit s ++ t) = false := by
  cases ht : RecvLine (Repr.lit s ++ t) with
  | false => rfl
  | true =>
    simp only [RecvLine, List.isPrefixOf_iff_prefix] at ht
    obtain ⟨u, hu⟩ := ht
    exact absurd hu (differ h)

theorem event_tells (e : Log.Env) (a : Event) : RecvLine (Log.event e a) = true := by
  cases a <;> simp only [Log.event, List.append_assoc] <;> first
    | exact tells_lit (by decide +kernel) _
    | decide +kernel

theorem serverEvent_tells (e : Log.Env) (a : SEvent) : RecvLine (Log.serverEvent e a) = true := by
  cases a <;> simp only [Log.serverEvent, List.append_assoc] <;> first
    | exact tells_lit (by decide +kernel) _
    | decide +kernel

theorem clientSal_lines (e : Log.Env) (i : Nat) (src : Option Int) (s : SAL) :
    (RecvLine (Log.clientSal e i src s) = true ∧ (salEvent src s).map (Log.event e) = some (Log.clientSal e i src s)) ∨
    (RecvLine (Log.clientSal e i src s) = false ∧ salEvent src s = none) := by
  cases s <;> simp only [Log.clientSal, salEvent, Option.map_some] <;> first
    | exact .inl ⟨event_tells e _, trivial⟩
    | exact .inr ⟨quiet_lit (by decide +kernel) _, trivial⟩

theorem clientSals_lines (e : Log.Env) (src : Option Int) : ∀ (i : Nat) (l : List SAL),
    (Log.clientSals e i src l).filter RecvLine = (l.filterMap (salEvent src)).map (Log.event e) ∧
    (Log.clientSals e i src l).length = l.length
  | _, [] => ⟨rfl, rfl⟩
  | i, s :: rest => by
    obtain ⟨h1, h2⟩ := clientSals_lines e src (i + 1) rest
    refine ⟨?_, by simp [Log.clientSals, h2]⟩
    simp only [Log.clientSals, List.filterMap_cons]
    rcases clientSal_lines e i src s with ⟨h3, h4⟩ | ⟨h3, h4⟩
    · cases hs : salEvent src s with
      | none => rw [hs] at h4; simp at h4
      | some a =>
        rw [hs] at h4
        simp only [Option.map_some, Option.some.injEq] at h4
        simp [h3, h1, h4]
    · simp [h3, h1, h4]

/-- C159: a client logs each packet; of the other lines, those that begin with `recv: ` are those of the events
that the packet raises, one for each, in order; and there is a line for each command, event or not. -/
theorem C159_client (e : Log.Env) (p : Packet) :
    (Log.client e p).head? = some (Repr.lit "Got packet: " ++ Repr.packet e.toEnv p) ∧
    (Log.client e p).filter RecvLine = (packetEvents p).map (Log.event e) ∧
    (∀ q, p = .pm q → (Log.client e p).length = q.sals.length + 1) ∧
    ((∀ q, p ≠ .pm q) → (Log.client e p).length = 2) := by
  have hg : RecvLine (Repr.lit "Got packet: " ++ Repr.packet e.toEnv p) = false := quiet_lit (by decide +kernel) _
  refine ⟨rfl, ?_, ?_, ?_⟩
  · simp only [Log.client, List.filter_cons, hg]
    cases p with
    | pm q => exact (clientSals_lines e q.src 0 q.sals).1
    | pciError => simp [Log.clientPacket, event_tells, packetEvents]
    | confirmation c s => simp [Log.clientPacket, event_tells, packetEvents]
    | _ =>
      simp only [Log.clientPacket, packetEvents, List.map_nil, List.filter_cons]
      rw [quiet_lit (by decide +kernel) _]
      rfl
  · rintro q rfl
    simp [Log.client, Log.clientPacket, (clientSals_lines e q.src 0 q.sals).2]
  · intro h
    cases p with
    | pm q => exact absurd rfl (h q)
    | _ => rfl

/-- C159: what the handlers of a client are called for, as long as none raises an exception, is what its log tells. -/
theorem C159_client_calls {π : Type} (e : Log.Env) (now : Nat → PyDateTime) (p : Packet) (s : Client)
    (h : (Client.onPacket (π := π) (Client.baseHook now) p s).2.2 = .ok ()) :
    (Log.client e p).filter RecvLine =
      (eventsOf (Client.onPacket (π := π) (Client.baseHook now) p s).2.1).map (Log.event e) := by
  rw [(C47_packet (baseHook_quiet now) p s).2 h, (C159_client e p).2.1]

/-! ## In the simulated PCI -/

theorem serverEvents_append : ∀ a b : List SEff, serverEvents (a ++ b) = serverEvents a ++ serverEvents b
  | [], _ => rfl
  | .event e :: a, b => by simp [serverEvents, serverEvents_append a b]
  | .write _ :: a, b => by simp [serverEvents, serverEvents_append a b]
  | .echo _ :: a, b => by simp [serverEvents, serverEvents_append a b]
  | .queued _ :: a, b => by simp [serverEvents, serverEvents_append a b]

theorem serverEvents_writes : ∀ q : List Bytes, serverEvents (q.map .write) = []
  | [] => rfl
  | _ :: q => by simp [serverEvents, serverEvents_writes q]

/-- What one SAL does to a simulated PCI, as far as the log is concerned. -/
theorem onSals_step {rand : Nat → Int} {x : SAL} {rest : List SAL} {s s1 : Server} {o : List SEff} {r : Py Bool}
    (h : Server.onSal rand x s = (s1, o, r)) :
    (Server.onSals rand (x :: rest) s).2.1 =
      o ++ (match r with | .ok true => (Server.onSals rand rest s1).2.1 | _ => []) := by
  simp only [Server.onSals, Proc.andThen, h]
  cases r with
  | error x => simp
  | ok b => cases b <;> simp [pure]

theorem serverSals_lines (e : Log.Env) {rand : Nat → Int} (hr : Server.RandOk rand) :
    ∀ (l : List SAL) (i : Nat) (s : Server), s.connected = true →
      (Log.serverSals e s.basic i l).filter RecvLine = (serverEvents (Server.onSals rand l s).2.1).map (Log.serverEvent e)
  | [], _, _, _ => rfl
  | x :: rest, i, s, hc => by
    have go : ∀ {a : SEvent} {o : List SEff} {s1 : Server}, Server.onSal rand x s = (s1, .event a :: o, .ok true) →
        serverEvents o = [] → s1.connected = true → s1.basic = s.basic →
        Log.serverSals e s.basic i (x :: rest) = Log.serverEvent e a :: Log.serverSals e s.basic (i + 1) rest →
        (Log.serverSals e s.basic i (x :: rest)).filter RecvLine =
          (serverEvents (Server.onSals rand (x :: rest) s).2.1).map (Log.serverEvent e) := by
      intro a o s1 h1 h2 h3 h4 h5
      rw [onSals_step h1, h5]
      simp only [List.cons_append, serverEvents, serverEvents_append, h2, List.nil_append, List.map_cons,
        List.filter_cons, serverEvent_tells, if_true]
      rw [← serverSals_lines e hr rest (i + 1) s1 h3, h4]
    have stop : ∀ {line : Str}, Server.onSal rand x s = (s, [], .ok false) → RecvLine line = false →
        Log.serverSals e s.basic i (x :: rest) = [line] →
        (Log.serverSals e s.basic i (x :: rest)).filter RecvLine =
          (serverEvents (Server.onSals rand (x :: rest) s).2.1).map (Log.serverEvent e) := by
      intro line h1 h2 h3
      rw [onSals_step h1, h3]
      simp [h2, serverEvents]
    cases x with
    | lightOn ga => exact go (o := []) rfl rfl hc rfl rfl
    | lightOff ga => exact go (o := []) rfl rfl hc rfl rfl
    | lightTerminate ga => exact go (o := []) rfl rfl hc rfl rfl
    | lightRamp ga d l => exact go (o := []) rfl rfl hc rfl rfl
    | clockRequest => exact go (o := []) rfl rfl hc rfl rfl
    | clockUpdate v =>
      obtain ⟨w1, w2, h⟩ := Server.onClockUpdate_eq rand hr v s
      refine go (a := .clockUpdate v) (o := [.queued (w1 ++ [0x0d, 0x0a]), .queued (w2 ++ [0x0d, 0x0a])])
        (s1 := { s with rngPos := s.rngPos + 4, queue := s.queue ++ [w1 ++ [0x0d, 0x0a], w2 ++ [0x0d, 0x0a]] }) ?_ rfl hc rfl rfl
      · simp [Server.onSal, Proc.andThen, h, pure]
    | temperature ga t => exact stop rfl (quiet_lit (by decide +kernel) _) rfl
    | enableSet v w => exact stop rfl (quiet_lit (by decide +kernel) _) rfl
    | statusRequest level ga child =>
      by_cases hm : child = appStatusRequest ∧ level = false
      · by_cases hb : s.basic = true
        · refine go (a := .masterStatus ga) (s1 := { s with queue := [] })
            (o := .write (Server.block 0) :: s.queue.map .write ++ [.write (Server.block 0x58), .write (Server.block 0xb0)])
            ?_ ?_ hc rfl ?_
          · simp [Server.onSal, hm, Proc.andThen, Server.onMasterStatus_eq ga s hc hb, pure]
          · rw [serverEvents_append]
            simp [serverEvents, serverEvents_writes]
          · simp [Log.serverSals, hm, hb]
        · have h1 : Server.onSal rand (.statusRequest level ga child) s =
              (s, [.event (.masterStatus ga)], .error .notImplemented) := by
            simp [Server.onSal, hm, Proc.andThen, Server.onMasterStatus, Proc.emit, hb]
          rw [onSals_step h1]
          simp [Log.serverSals, hm, hb, serverEvents, serverEvent_tells]
      · refine stop (line := Repr.lit "dce: unhandled status request SAL: " ++ Repr.sal e.toEnv i (.statusRequest level ga child))
          ?_ (quiet_lit (by decide +kernel) _) ?_
        · simp [Server.onSal, hm, pure]
        · simp only [Log.serverSals, if_neg hm]

theorem quiet_confirm (c : Option UInt8) (s : Server) : serverEvents (Server.confirm c s).2.1 = [] := by
  cases c with
  | none => rfl
  | some c =>
    simp only [Server.confirm, Server.sendConfirmation]
    split
    · rfl
    · simp only [Server.send]
      split
      · rfl
      · simp only [Server.writeOut]
        split
        · simp [serverEvents, serverEvents_writes]
        · rfl

theorem quiet_dm (q : DM) (s : Server) : ∃ s1 b, Server.onDM q s = (s1, [], .ok b) := by
  unfold Server.onDM
  split
  · exact ⟨_, _, rfl⟩
  · split
    · exact ⟨_, _, rfl⟩
    · exact ⟨_, _, rfl⟩

/-- C159: a simulated PCI logs each packet; of the other lines, those that begin with `recv: ` are those of the
calls of its event handlers, one for each, in order. -/
theorem C159_server (e : Log.Env) (rand : Nat → Int) (hr : Server.RandOk rand) (p : Packet) (s : Server)
    (hc : s.connected = true) :
    (Log.server e s.basic p).head? = some (Repr.lit "Got packet: " ++ Repr.packet e.toEnv p) ∧
    (Log.server e s.basic p).filter RecvLine = (serverEvents (Server.onPacket rand p s).2.1).map (Log.serverEvent e) := by
  refine ⟨rfl, ?_⟩
  have hg : RecvLine (Repr.lit "Got packet: " ++ Repr.packet e.toEnv p) = false := quiet_lit (by decide +kernel) _
  have hd : RecvLine (Repr.lit "dce: " ++ Repr.packet e.toEnv p) = false := quiet_lit (by decide +kernel) _
  have hi : ∀ x, RecvLine (Repr.lit "dce: invalid packet: " ++ x) = false := fun x => quiet_lit (by decide +kernel) _
  have hr2 : RecvLine (Repr.lit "dce: got a cal?: " ++ Repr.packet e.toEnv p) = false := quiet_lit (by decide +kernel) _
  have hu : RecvLine (Repr.lit "dce: unhandled packet type: " ++ Repr.packet e.toEnv p) = false := quiet_lit (by decide +kernel) _
  have hm : ∀ x, RecvLine (Repr.lit "dce: unhandled DeviceManagementPacket (" ++ x) = false := fun x => quiet_lit (by decide +kernel) _
  have ev : RecvLine (Log.serverEvent e .reset) = true := serverEvent_tells e _
  simp only [Log.server, List.filter_cons, hg, Bool.false_eq_true, if_false]
  cases p with
  | pm q =>
    simp only [Log.serverPacket, List.filter_cons, hd, Bool.false_eq_true, if_false]
    rw [serverSals_lines e hr q.sals 0 s hc]
    congr 1
    simp only [Server.onPacket, Proc.andThen]
    generalize Server.onSals rand q.sals s = z
    obtain ⟨s1, o, r⟩ := z
    cases r with
    | error x => rfl
    | ok b =>
      cases b with
      | false => simp [pure]
      | true => simp [serverEvents_append, quiet_confirm]
  | dm q =>
    have he : serverEvents (Server.onPacket rand (.dm q) s).2.1 = [] := by
      obtain ⟨s1, b, h⟩ := quiet_dm q s
      simp only [Server.onPacket, Proc.andThen, h]
      cases b with
      | false => simp [pure, serverEvents]
      | true => simp [quiet_confirm]
    rw [he]
    simp only [Log.serverPacket, List.append_assoc]
    split <;> simp [hd, hm]
  | reset => simp [Log.serverPacket, hd, ev, Server.onPacket, Server.onReset, serverEvents]
  | smartConnect => simp [Log.serverPacket, hd, Server.onPacket, Proc.modify, serverEvents]
  | invalid d x => simp [Log.serverPacket, hi, Server.onPacket, pure, serverEvents]
  | cal c => cases c <;> simp [Log.serverPacket, hd, hu, hr2, Server.onPacket, pure, serverEvents]
  | powerOn => simp [Log.serverPacket, hd, hu, Server.onPacket, pure, serverEvents]
  | pciError => simp [Log.serverPacket, hd, hu, Server.onPacket, pure, serverEvents]
  | confirmation c b => simp [Log.serverPacket, hd, hu, Server.onPacket, pure, serverEvents]
  | pp q => simp [Log.serverPacket, hd, hu, Server.onPacket, pure, serverEvents]

theorem unhandled_lit {s : String} (t : Str) (h : UnhandledLine (Repr.lit s) = true := by decide +kernel) :
    UnhandledLine (Repr.lit s ++ t) = true := by
  unfold UnhandledLine at h ⊢
  rw [List.isPrefixOf_iff_prefix] at h ⊢
  exact h.trans (List.prefix_append _ _)

theorem recv_handled {l : Str} (h : RecvLine l = true) : UnhandledLine l = false := by
  cases hu : UnhandledLine l with
  | false => rfl
  | true =>
    unfold RecvLine at h
    unfold UnhandledLine at hu
    rw [List.isPrefixOf_iff_prefix] at h hu
    obtain ⟨t, rfl⟩ := h
    obtain ⟨t', ht⟩ := hu
    have h5 : "recv: ".toList = 'r' :: "ecv: ".toList := by decide +kernel
    have h6 : "dce: unhandled".toList = 'd' :: "ce: unhandled".toList := by decide +kernel
    rw [h5, h6] at ht
    exact absurd (List.cons.inj ht).1 (by decide)

theorem dce_handled (e : Repr.Env) (p : Packet) : UnhandledLine (Repr.lit "dce: " ++ Repr.packet e p) = false := by
  obtain ⟨t, ht⟩ := packet_head e p
  have key : ∀ i : Fin 13, (packetHeads.getD i []).head? ≠ some 'u' ∧ packetHeads.getD i [] ≠ [] := by decide +kernel
  obtain ⟨h1, h2⟩ := key ⟨_, packetTag_lt p⟩
  rw [ht]
  have h3 : packetHead p = packetHeads.getD (packetTag p) [] := rfl
  rw [← h3] at h1 h2
  cases hh : packetHead p with
  | nil => exact absurd hh h2
  | cons c r =>
    rw [hh] at h1
    have h4 : c ≠ 'u' := fun h => h1 (by simp [h])
    have h5 : Repr.lit "dce: " = ['d', 'c', 'e', ':', ' '] := by decide +kernel
    have h6 : "dce: unhandled".toList = 'd' :: 'c' :: 'e' :: ':' :: ' ' :: 'u' :: "nhandled".toList := by decide +kernel
    simp only [UnhandledLine, h5, h6, List.cons_append, List.nil_append, List.isPrefixOf_cons_cons, beq_self_eq_true, Bool.true_and]
    simp [Ne.symm h4]

theorem onSals_result {rand : Nat → Int} {x : SAL} {rest : List SAL} {s s1 : Server} {o : List SEff} {r : Py Bool}
    (h : Server.onSal rand x s = (s1, o, r)) :
    (Server.onSals rand (x :: rest) s).2.2 =
      (match r with | .ok true => (Server.onSals rand rest s1).2.2 | .ok false => .ok false | .error x => .error x) := by
  simp only [Server.onSals, Proc.andThen, h]
  cases r with
  | error x => simp
  | ok b => cases b <;> simp [pure]

theorem serverSals_unhandled (e : Log.Env) {rand : Nat → Int} (hr : Server.RandOk rand) :
    ∀ (l : List SAL) (i : Nat) (s : Server), s.connected = true → ∀ b, (Server.onSals rand l s).2.2 = .ok b →
      (Log.serverSals e s.basic i l).any UnhandledLine = !b
  | [], _, _, _, b, hb => by simp [Server.onSals, pure] at hb; subst hb; rfl
  | x :: rest, i, s, hc, b, hb => by
    have go : ∀ {a : SEvent} {o : List SEff} {s1 : Server}, Server.onSal rand x s = (s1, o, .ok true) →
        s1.connected = true → s1.basic = s.basic →
        Log.serverSals e s.basic i (x :: rest) = Log.serverEvent e a :: Log.serverSals e s.basic (i + 1) rest →
        (Log.serverSals e s.basic i (x :: rest)).any UnhandledLine = !b := by
      intro a o s1 h1 h3 h4 h5
      rw [onSals_result h1] at hb
      rw [h5, List.any_cons, recv_handled (serverEvent_tells e a), ← h4, Bool.false_or]
      exact serverSals_unhandled e hr rest (i + 1) s1 h3 b hb
    have stop : ∀ {line : Str}, Server.onSal rand x s = (s, [], .ok false) → UnhandledLine line = true →
        Log.serverSals e s.basic i (x :: rest) = [line] →
        (Log.serverSals e s.basic i (x :: rest)).any UnhandledLine = !b := by
      intro line h1 h2 h3
      rw [onSals_result h1] at hb
      cases hb
      rw [h3]; simp [h2]
    cases x with
    | lightOn ga => exact go (o := [.event (.lightingOn ga)]) rfl hc rfl rfl
    | lightOff ga => exact go (o := [.event (.lightingOff ga)]) rfl hc rfl rfl
    | lightTerminate ga => exact go (o := [.event (.lightingTerminate ga)]) rfl hc rfl rfl
    | lightRamp ga d l => exact go (o := [.event (.lightingRamp ga d l)]) rfl hc rfl rfl
    | clockRequest => exact go (o := [.event .clockRequest]) rfl hc rfl rfl
    | clockUpdate v =>
      obtain ⟨w1, w2, h⟩ := Server.onClockUpdate_eq rand hr v s
      refine go (a := .clockUpdate v)
        (o := [.event (.clockUpdate v), .queued (w1 ++ [0x0d, 0x0a]), .queued (w2 ++ [0x0d, 0x0a])])
        (s1 := { s with rngPos := s.rngPos + 4, queue := s.queue ++ [w1 ++ [0x0d, 0x0a], w2 ++ [0x0d, 0x0a]] }) ?_ hc rfl rfl
      · simp [Server.onSal, Proc.andThen, h, pure]
    | temperature ga t => exact stop rfl (unhandled_lit _) rfl
    | enableSet v w => exact stop rfl (unhandled_lit _) rfl
    | statusRequest level ga child =>
      by_cases hm : child = appStatusRequest ∧ level = false
      · by_cases hs : s.basic = true
        · refine go (a := .masterStatus ga) (s1 := { s with queue := [] })
            (o := .event (.masterStatus ga) :: .write (Server.block 0) :: s.queue.map .write ++ [.write (Server.block 0x58), .write (Server.block 0xb0)])
            ?_ hc rfl ?_
          · simp [Server.onSal, hm, Proc.andThen, Server.onMasterStatus_eq ga s hc hs, pure]
          · simp [Log.serverSals, hm, hs]
        · have h1 : Server.onSal rand (.statusRequest level ga child) s =
              (s, [.event (.masterStatus ga)], .error .notImplemented) := by
            simp [Server.onSal, hm, Proc.andThen, Server.onMasterStatus, Proc.emit, hs]
          rw [onSals_result h1] at hb
          cases hb
      · refine stop (line := Repr.lit "dce: unhandled status request SAL: " ++ Repr.sal e.toEnv i (.statusRequest level ga child))
          ?_ (unhandled_lit _) ?_
        · simp [Server.onSal, hm, pure]
        · simp only [Log.serverSals, if_neg hm]

/-- C159: whether a packet that was sent with a confirmation code is confirmed can be told from the log. Where a line says
that something in it was not handled the code makes no difference; where no line does, the packet is confirmed after all else
that it leads to. -/
theorem C159_confirmed (e : Log.Env) (rand : Nat → Int) (hr : Server.RandOk rand) (s : Server) (hc : s.connected = true)
    (c : UInt8) (p bare : Packet)
    (hp : (∃ q : PM, p = .pm { q with conf := some c } ∧ bare = .pm { q with conf := none }) ∨
      ∃ q : DM, p = .dm { q with conf := some c } ∧ bare = .dm { q with conf := none })
    (hok : (Server.onPacket rand bare s).2.2 = .ok ()) :
    Server.onPacket rand p s =
      if (Log.server e s.basic p).any UnhandledLine then Server.onPacket rand bare s
      else Proc.andThen (Server.onPacket rand bare) (fun _ => Server.sendConfirmation [c] true) s := by
  have hg : ∀ p, UnhandledLine (Repr.lit "Got packet: " ++ Repr.packet e.toEnv p) = false := fun p => by
    have h5 : Repr.lit "Got packet: " = 'G' :: Repr.lit "ot packet: " := by decide +kernel
    have h6 : "dce: unhandled".toList = 'd' :: "ce: unhandled".toList := by decide +kernel
    rw [UnhandledLine, h5, h6]; rfl
  rcases hp with ⟨q, rfl, rfl⟩ | ⟨q, rfl, rfl⟩
  · simp only [Log.server, Log.serverPacket, List.any_cons, hg, dce_handled, Bool.false_or]
    have hu := serverSals_unhandled e hr q.sals 0 s hc
    simp only [Server.onPacket, Proc.andThen] at hok ⊢
    generalize Server.onSals rand q.sals s = z at hok hu ⊢
    obtain ⟨s1, o, r⟩ := z
    cases r with
    | error x => cases hok
    | ok b =>
      rw [hu b rfl]
      cases b <;> simp [pure, Server.confirm]
  · simp only [Log.server, List.any_cons, hg, Bool.false_or]
    by_cases h1 : q.parameter = 0x21 ∨ q.parameter = 0x22 ∨ q.parameter = 0x3e ∨ q.parameter = 0x42
    · have hl : (Log.serverPacket e s.basic (.dm { q with conf := some c })).any UnhandledLine = false := by
        simp only [Log.serverPacket]
        rw [if_pos (by rcases h1 with h | h | h | h <;> simp [h])]
        simp [dce_handled]
      rw [hl]
      simp [Server.onPacket, Proc.andThen, Server.onDM, h1, pure, Server.confirm]
    · by_cases h2 : q.parameter = 0x30 ∨ q.parameter = 0x41
      · have hl : (Log.serverPacket e s.basic (.dm { q with conf := some c })).any UnhandledLine = false := by
          simp only [Log.serverPacket]
          rw [if_pos (by rcases h2 with h | h <;> simp [h])]
          simp [dce_handled]
        rw [hl]
        simp [Server.onPacket, Proc.andThen, Server.onDM, h1, h2, pure, Server.confirm]
      · have hl : (Log.serverPacket e s.basic (.dm { q with conf := some c })).any UnhandledLine = true := by
          simp only [Log.serverPacket]
          rw [if_neg (by simp only [not_or] at h1 h2 ⊢; simp [h1, h2])]
          have hu : ∀ t, UnhandledLine (Repr.lit "dce: unhandled DeviceManagementPacket (" ++ t) = true := fun t => unhandled_lit t
          simp only [List.append_assoc, List.any_cons, hu, Bool.true_or, Bool.or_true]
        rw [hl]
        simp [Server.onPacket, Proc.andThen, Server.onDM, h1, h2, pure]

/-- A parameter that the simulated PCI knows, and one that it does not: only the former is confirmed. -/
example :
    let e : Log.Env := { address := fun _ => 0, float := fun _ => [], exception := fun _ => [], percent := fun _ => [], message := fun _ => [] }
    let p (n : Int) : Packet := .dm { checksum := false, prio := .class2, parameter := n, value := 0xe, conf := some 0x67 }
    (Log.server e true (p 0x42)).any UnhandledLine = false ∧ (Log.server e true (p 0x43)).any UnhandledLine = true ∧
    (Server.onPacket (fun _ => 1) (p 0x42) { connected := true }).2.1 = [.write (ascii "g.")] ∧
    (Server.onPacket (fun _ => 1) (p 0x43) { connected := true }).2.1 = [] := by
  decide +kernel

/-! ## What was received -/

theorem packetEvents_whole {p : Packet} (h : WholeLevels p) : ∀ a ∈ packetEvents p, WholeEvent a := by
  intro a ha
  cases p with
  | pm q =>
    obtain ⟨s, hs, he⟩ := List.mem_filterMap.1 ha
    have hw := h s hs
    cases s <;> simp only [salEvent, Option.some.injEq, reduceCtorEq] at he <;> subst he <;> first | trivial | exact hw
  | confirmation c b =>
    simp only [packetEvents, List.mem_singleton] at ha
    subst ha; trivial
  | pciError =>
    simp only [packetEvents, List.mem_singleton] at ha
    subst ha; trivial
  | _ => simp [packetEvents] at ha

theorem map_inj_on {α β : Type} {f g : α → β} : ∀ {a b : List α}, (∀ x ∈ a, ∀ y ∈ b, f x = g y → x = y) → a.map f = b.map g → a = b
  | [], [], _, _ => rfl
  | [], _ :: _, _, h => by simp at h
  | _ :: _, [], _, h => by simp at h
  | x :: a, y :: b, hi, h => by
    simp only [List.map_cons, List.cons.injEq] at h
    rw [hi x (by simp) y (by simp) h.1, map_inj_on (fun x hx y hy => hi x (by simp [hx]) y (by simp [hy])) h.2]

/-- C159: whatever two clients receive, if they log the same lines that begin with `recv: `, they were told the same. -/
theorem C159_received (e e' : Log.Env) (d d' : Bytes) (cs cs' : Bool) (p q : Packet) (n n' : Nat)
    (hp : decodePacket d cs true true = .ok (some p, n)) (hq : decodePacket d' cs' true true = .ok (some q, n'))
    (h : (Log.client e p).filter RecvLine = (Log.client e' q).filter RecvLine) : packetEvents p = packetEvents q := by
  rw [(C159_client e p).2.1, (C159_client e' q).2.1] at h
  exact map_inj_on (fun x hx y hy he => C159_event e e' x y (packetEvents_whole (received_whole hp) x hx)
    (packetEvents_whole (received_whole hq) y hy) he) h

theorem serverEvents_whole {rand : Nat → Int} (hr : Server.RandOk rand) : ∀ (l : List SAL) (s : Server), s.connected = true →
    (∀ x ∈ l, WholeLevel x) → ∀ a ∈ serverEvents (Server.onSals rand l s).2.1, WholeSEvent a
  | [], _, _, _, a, ha => by simp [Server.onSals, pure, serverEvents] at ha
  | x :: rest, s, hc, hw, a, ha => by
    have hx := hw x (by simp)
    have ih := serverEvents_whole hr rest
    have hw' : ∀ y ∈ rest, WholeLevel y := fun y hy => hw y (by simp [hy])
    have go : ∀ {b : SEvent} {o : List SEff} {s1 : Server}, Server.onSal rand x s = (s1, .event b :: o, .ok true) →
        serverEvents o = [] → s1.connected = true → WholeSEvent b → WholeSEvent a := by
      intro b o s1 h1 h2 h3 h4
      rw [onSals_step h1] at ha
      simp only [List.cons_append, serverEvents, serverEvents_append, h2, List.nil_append, List.mem_cons] at ha
      rcases ha with rfl | ha
      · exact h4
      · exact ih s1 h3 hw' a ha
    have stop : Server.onSal rand x s = (s, [], .ok false) → WholeSEvent a := by
      intro h1
      rw [onSals_step h1] at ha
      simp [serverEvents] at ha
    cases x with
    | lightOn ga => exact go (o := []) rfl rfl hc trivial
    | lightOff ga => exact go (o := []) rfl rfl hc trivial
    | lightTerminate ga => exact go (o := []) rfl rfl hc trivial
    | lightRamp ga d l => exact go (o := []) rfl rfl hc hx
    | clockRequest => exact go (o := []) rfl rfl hc trivial
    | clockUpdate v =>
      obtain ⟨w1, w2, h⟩ := Server.onClockUpdate_eq rand hr v s
      refine go (b := .clockUpdate v) (o := [.queued (w1 ++ [0x0d, 0x0a]), .queued (w2 ++ [0x0d, 0x0a])])
        (s1 := { s with rngPos := s.rngPos + 4, queue := s.queue ++ [w1 ++ [0x0d, 0x0a], w2 ++ [0x0d, 0x0a]] }) ?_ rfl hc trivial
      simp [Server.onSal, Proc.andThen, h, pure]
    | temperature ga t => exact stop rfl
    | enableSet v w => exact stop rfl
    | statusRequest level ga child =>
      by_cases hm : child = appStatusRequest ∧ level = false
      · by_cases hb : s.basic = true
        · refine go (b := .masterStatus ga) (s1 := { s with queue := [] })
            (o := .write (Server.block 0) :: s.queue.map .write ++ [.write (Server.block 0x58), .write (Server.block 0xb0)])
            ?_ ?_ hc trivial
          · simp [Server.onSal, hm, Proc.andThen, Server.onMasterStatus_eq ga s hc hb, pure]
          · rw [serverEvents_append]
            simp [serverEvents, serverEvents_writes]
        · have h1 : Server.onSal rand (.statusRequest level ga child) s =
              (s, [.event (.masterStatus ga)], .error .notImplemented) := by
            simp [Server.onSal, hm, Proc.andThen, Server.onMasterStatus, Proc.emit, hb]
          rw [onSals_step h1] at ha
          simp only [serverEvents, List.append_nil, List.mem_singleton] at ha
          subst ha; trivial
      · exact stop (by simp [Server.onSal, hm, pure])

theorem packetCalls_whole {rand : Nat → Int} (hr : Server.RandOk rand) {p : Packet} (h : WholeLevels p) {s : Server}
    (hc : s.connected = true) : ∀ a ∈ serverEvents (Server.onPacket rand p s).2.1, WholeSEvent a := by
  intro a ha
  cases p with
  | pm q =>
    refine serverEvents_whole hr q.sals s hc h a ?_
    simp only [Server.onPacket, Proc.andThen] at ha
    generalize Server.onSals rand q.sals s = z at ha ⊢
    obtain ⟨s1, o, r⟩ := z
    cases r with
    | error x => exact ha
    | ok b =>
      cases b with
      | false => simpa [pure] using ha
      | true => simpa [serverEvents_append, quiet_confirm] using ha
  | dm q =>
    obtain ⟨s1, b, h⟩ := quiet_dm q s
    simp only [Server.onPacket, Proc.andThen, h] at ha
    cases b with
    | false => simp [pure, serverEvents] at ha
    | true => simp [quiet_confirm] at ha
  | reset =>
    simp only [Server.onPacket, Server.onReset, serverEvents, List.mem_singleton] at ha
    subst ha; trivial
  | _ => simp [Server.onPacket, Proc.modify, pure, serverEvents] at ha

/-- C159: whatever two simulated PCIs receive, if they log the same lines that begin with `recv: `, they were told
the same. (Missing: the brightness is not written as the percentage that it is; see `C159_false`.) -/
theorem C159_partial (e e' : Log.Env) (rand rand' : Nat → Int) (hr : Server.RandOk rand) (hr' : Server.RandOk rand')
    (d d' : Bytes) (cs cs' : Bool) (p q : Packet) (n n' : Nat) (s s' : Server) (hc : s.connected = true)
    (hc' : s'.connected = true)
    (hp : decodePacket d cs true false = .ok (some p, n)) (hq : decodePacket d' cs' true false = .ok (some q, n'))
    (h : (Log.server e s.basic p).filter RecvLine = (Log.server e' s'.basic q).filter RecvLine) :
    serverEvents (Server.onPacket rand p s).2.1 = serverEvents (Server.onPacket rand' q s').2.1 := by
  rw [(C159_server e rand hr p s hc).2, (C159_server e' rand' hr' q s' hc').2] at h
  exact map_inj_on (fun x hx y hy he => C159_server_event e e' x y (packetCalls_whole hr (received_whole hp) hc x hx)
    (packetCalls_whole hr' (received_whole hq) hc' y hy) he) h

/-- The line for a ramp has the brightness in it as a percentage. -/
def C159_claim : Prop := ∀ (e : Log.Env) (ga d : Int) (l : Nat), l ≤ 255 → ∃ k t, k ≤ 10000 ∧ Percentage k t ∧
  Log.serverEvent e (.lightingRamp ga d (.int l)) =
    "recv: lighting ramp: ".toList ++ intStr ga ++ ", duration ".toList ++ intStr d ++ " seconds to level ".toList ++ t

/-- C159: the percentage is a hundred times the level from 0 to 255. -/
theorem C159_percent (e : Log.Env) (ga d : Int) (l : Nat) : ∃ t, Percentage (l * 10000) t ∧
    Log.serverEvent e (.lightingRamp ga d (.int l)) =
      "recv: lighting ramp: ".toList ++ intStr ga ++ ", duration ".toList ++ intStr d ++ " seconds to level ".toList ++ t := by
  refine ⟨natStr (l * 100) ++ ['.', '0', '0', '%'], ⟨'0', '0', ?_, ?_, ?_⟩, ?_⟩
  · rw [show l * 10000 / 100 = l * 100 by omega]
  · rw [show l * 10000 / 10 % 10 = 0 by omega]; rfl
  · rw [show l * 10000 % 10 = 0 by omega]; rfl
  · have e1 : intStr ((l : Int) * 100) = natStr (l * 100) := by
      unfold intStr
      rw [if_neg (by omega)]
      congr 1
    simp only [Log.serverEvent, Log.percent, e1, Repr.lit, List.append_assoc]
    rfl

/-- A light that is turned up to full brightness: 25500.00%. -/
theorem C159_false : ¬ C159_claim := by
  intro h
  obtain ⟨k, t, hk, ⟨a, b, ht, -, -⟩, h1⟩ := h ⟨someEnv, fun _ => [], fun _ => []⟩ 1 0 255 (by omega)
  obtain ⟨t', ⟨a', b', ht', -, -⟩, h2⟩ := C159_percent ⟨someEnv, fun _ => [], fun _ => []⟩ 1 0 255
  rw [h1] at h2
  have h3 := List.append_cancel_left h2
  rw [ht, ht'] at h3
  have h4 : ∀ n : Nat, ∀ c ∈ natStr n, wordChar c = true := fun n c hc => digit_word (.inl (natStr_digit n c hc))
  have hs : ∀ a b : Char, Stops ['.', a, b, '%'] := by
    intro a b c hc
    simp only [List.head?_cons, Option.mem_def, Option.some.injEq] at hc
    subst hc; decide
  have h5 := (word_split (h4 _) (h4 _) (hs a b) (hs a' b') h3).1
  have h6 := (reads_nat _ _ [')'] [')'] (ends_lit (by decide)) (ends_lit (by decide)) (congrArg (· ++ [')']) h5)).1
  omega

/-- A client that is told of a ramp, and a simulated PCI that is told to ramp and then to do something it cannot do. -/
example :
    (∃ p, decodePacket (ascii "05FA38000201FFC7\r\n") = .ok (some p, 18) ∧
      (Log.client ⟨someEnv, fun _ => [], fun _ => []⟩ p).filter RecvLine =
        ["recv: light ramp: from 250 to 1, duration 0 seconds to level 255 ".toList]) ∧
    (Log.server ⟨someEnv, fun _ => [], fun _ => []⟩ true
        (.pm { app := some 56, sals := [.lightRamp 1 4 (.int 128), .lightOff 7] })).drop 2 =
      ["recv: lighting ramp: 1, duration 4 seconds to level 12800.00%".toList, "recv: lighting off: 7".toList] ∧
    (Log.server ⟨someEnv, fun _ => [], fun _ => []⟩ true (.pm { app := some 0xff, sals := [.statusRequest true 0 56,
        .statusRequest false 0 0xff] })).drop 2 =
      [("dce: unhandled status request SAL: StatusRequestSAL(level_request=True, group_address=0, " ++
        "child_application=56)").toList] := by
  refine ⟨⟨.pm { app := some 56, src := some 250, sals := [.lightRamp 1 0 (.int 255)] }, by decide +kernel, by decide +kernel⟩,
    by decide +kernel, by decide +kernel⟩

end CBus.Props
