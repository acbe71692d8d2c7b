import Verif.Spec.Held
import Verif.Props.EndToEnd

/-! # C160: what the simulated PCI holds back

`on_clock_update` of `pciserverprotocol.py` puts two packets into a queue, which is emptied when the
next packet is sent. -/

namespace CBus.Props
open CBus CBus.Spec

/-- The length of the queue after what happened, from its length before. -/
def held : Nat → List SEff → Nat
  | n, [] => n
  | n, e :: t => held (if isSend e then 0 else if isClockUpdate e then n + 2 else n) t

theorem held_append (a b : List SEff) : ∀ n, held n (a ++ b) = held (held n a) b := by
  induction a with
  | nil => intro n; rfl
  | cons e a ih => intro n; exact ih _

theorem held_writes (q : List Bytes) : held 0 (q.map .write) = 0 := by
  induction q with
  | nil => rfl
  | cons w q ih => exact ih

/-- From the length of a queue that was not yet sent. -/
theorem held_since (o : List SEff) (n : Nat) :
    held n o = (if o.any isSend then 0 else n) + 2 * clockUpdates (sinceSent o) := by
  have key : ∀ r : List SEff, held n r.reverse = (if r.any isSend then 0 else n) + 2 * clockUpdates (r.takeWhile fun e => !isSend e) := by
    intro r
    induction r with
    | nil => rfl
    | cons e r ih =>
      rw [List.reverse_cons, held_append, ih]
      cases hs : isSend e with
      | true => simp [held, hs, clockUpdates]
      | false =>
        cases hc : isClockUpdate e with
        | true => simp [held, hs, hc, clockUpdates]; omega
        | false => simp [held, hs, hc, clockUpdates]
  have h := key o.reverse
  rw [List.reverse_reverse] at h
  rw [h]
  simp only [sinceSent, clockUpdates, List.any_reverse, List.filter_reverse, List.length_reverse]

/-- The queue is as long as what happened says. -/
def HeldRel (s : Server) (t : List SEff) (s' : Server) : Prop := s'.queue.length = held s.queue.length t

theorem heldTrace : TraceRel HeldRel where
  nil _ := rfl
  append h1 h2 := by unfold HeldRel at *; rw [h2, h1, held_append]

theorem held_writeOut (w : Bytes) : Keeps HeldRel (Server.writeOut w) := by
  intro s
  unfold Server.writeOut
  split
  · exact (held_writes s.queue).symm
  · rfl

theorem held_send (p : Packet) : Keeps HeldRel (Server.send p) := by
  intro s
  unfold Server.send
  split
  · rfl
  · exact held_writeOut _ s

theorem held_confirmation (code : Bytes) (ok : Bool) : Keeps HeldRel (Server.sendConfirmation code ok) := by
  intro s
  unfold Server.sendConfirmation
  split
  · rfl
  · exact held_send _ s

theorem held_confirm (conf : Option UInt8) : Keeps HeldRel (Server.confirm conf) := by
  cases conf with
  | none => exact Keeps.pure heldTrace ()
  | some c => exact held_confirmation [c] true

theorem held_sendEvent (sal : Py SAL) (src : Int) : Keeps HeldRel (Server.sendEvent sal src) := by
  intro s
  unfold Server.sendEvent
  split
  · rfl
  · exact held_send _ s

theorem held_emit (e : SEvent) (h : isClockUpdate (.event e) = false) : Keeps HeldRel (Proc.emit (.event e)) := by
  intro s
  show s.queue.length = held s.queue.length [.event e]
  simp [held, h, isSend]

theorem held_sendBlock (x : Nat) : Keeps HeldRel (Server.sendBlock x) := by
  intro s
  unfold Server.sendBlock
  split
  · rfl
  · exact held_writeOut _ s

theorem held_onSal (rand : Nat → Int) (hr : Server.RandOk rand) (x : SAL) : Keeps HeldRel (Server.onSal rand x) := by
  have pr : ∀ b : Bool, Keeps HeldRel (pure b) := fun b => Keeps.pure heldTrace b
  have hm : ∀ ga, Keeps HeldRel (Server.onMasterStatus ga) := by
    intro ga
    refine Keeps.andThen heldTrace (held_emit _ rfl) (fun _ s => ?_)
    by_cases hb : s.basic = true
    · simp only [hb, if_true]
      exact Keeps.andThen heldTrace (held_sendBlock 0) (fun _ => Keeps.andThen heldTrace (held_sendBlock _)
        (fun _ => held_sendBlock _)) s
    · simp only [hb]
      rfl
  have hu : ∀ v, Keeps HeldRel (Server.onClockUpdate rand v) := by
    intro v s
    obtain ⟨w1, w2, h⟩ := Server.onClockUpdate_eq rand hr v s
    rw [h]
    simp [HeldRel, held, isSend, isClockUpdate]
  cases x with
  | statusRequest level ga child =>
    unfold Server.onSal
    simp only
    split
    · exact Keeps.andThen heldTrace (hm ga) (fun _ => pr _)
    · exact pr _
  | clockUpdate v => exact Keeps.andThen heldTrace (hu v) (fun _ => pr _)
  | temperature _ _ => exact pr _
  | enableSet _ _ => exact pr _
  | _ => exact Keeps.andThen heldTrace (held_emit _ rfl) (fun _ => pr _)

theorem held_onSals (rand : Nat → Int) (hr : Server.RandOk rand) : ∀ l, Keeps HeldRel (Server.onSals rand l)
  | [] => Keeps.pure heldTrace true
  | x :: l => by
    refine Keeps.andThen heldTrace (held_onSal rand hr x) (fun go => ?_)
    cases go
    · exact Keeps.pure heldTrace false
    · exact held_onSals rand hr l

theorem held_onPacket (rand : Nat → Int) (hr : Server.RandOk rand) (p : Packet) : Keeps HeldRel (Server.onPacket rand p) := by
  have ite : ∀ (go : Bool) (conf : Option UInt8),
      Keeps HeldRel (if go then Server.confirm conf else pure () : Proc Server SEff Unit) := by
    intro go conf
    cases go
    · exact Keeps.pure heldTrace ()
    · exact held_confirm conf
  cases p with
  | pm q => exact Keeps.andThen heldTrace (held_onSals rand hr q.sals) (fun go => ite go q.conf)
  | dm q =>
    refine Keeps.andThen heldTrace ?_ (fun go => ite go q.conf)
    intro s
    unfold Server.onDM
    split
    · rfl
    · split <;> rfl
  | reset => exact fun s => rfl
  | smartConnect => exact fun s => rfl
  | _ => exact Keeps.pure heldTrace ()

theorem held_handle (rand : Nat → Int) (hr : Server.RandOk rand) (b : Bytes) : Keeps HeldRel (Server.handle rand b) := by
  refine Keeps.handleData heldTrace ?_ (held_onPacket rand hr) b
  intro d s
  unfold Server.echo
  split
  · split <;> rfl
  · rfl

theorem held_op (rand : Nat → Int) (hr : Server.RandOk rand) (op : ServerOp) (c : Conn Server) :
    HeldRel c.st (runServerOp rand op c).2 (runServerOp rand op c).1.st := by
  cases op with
  | made =>
    exact Keeps.andThen (m := Proc.modify fun s => { s with connected := true }) heldTrace
      (fun s => rfl) (fun _ => held_send .powerOn) c.st
  | receive d => exact Keeps.dataReceived heldTrace (held_handle rand hr) maxBufferSize d c
  | on src ga => exact held_sendEvent _ _ c.st
  | off src ga => exact held_sendEvent _ _ c.st
  | terminate src ga => exact held_sendEvent _ _ c.st
  | ramp src ga d l => exact held_sendEvent _ _ c.st
  | error => exact held_send _ c.st
  | confirmation code ok => exact held_confirmation code ok c.st

theorem held_ops (rand : Nat → Int) (hr : Server.RandOk rand) : ∀ (ops : List ServerOp) (c : Conn Server),
    HeldRel c.st (runServerOps rand ops c).2 (runServerOps rand ops c).1.st := by
  intro ops
  induction ops with
  | nil => exact fun c => rfl
  | cons op ops ih => exact fun c => heldTrace.append (held_op rand hr op c) (ih _)

/-- C160: whatever happens to a simulated PCI, with or without exceptions, it holds back two packets for each
clock update since it last sent something, and none besides. -/
theorem C160_held (rand : Nat → Int) (hr : Server.RandOk rand) (ops : List ServerOp) (c : Conn Server)
    (hq : c.st.queue = []) :
    (runServerOps rand ops c).1.st.queue.length = 2 * clockUpdates (sinceSent (runServerOps rand ops c).2) := by
  have h := held_ops rand hr ops c
  unfold HeldRel at h
  rw [h, held_since, hq]
  simp

/-- C160, what is true of it: nothing is held back once something was sent after the last clock update, so
nothing is after a command with a confirmation code that is answered. -/
theorem C160_partial (rand : Nat → Int) (hr : Server.RandOk rand) (ops : List ServerOp) (c : Conn Server)
    (hq : c.st.queue = []) (a b : List SEff) (w : Bytes) (h : (runServerOps rand ops c).2 = a ++ .write w :: b)
    (hb : ∀ e ∈ b, isClockUpdate e = false) : (runServerOps rand ops c).1.st.queue = [] := by
  have h1 := C160_held rand hr ops c hq
  have h2 : ∀ e ∈ sinceSent (runServerOps rand ops c).2, e ∈ b := by
    intro e he
    rw [h] at he
    simp only [sinceSent, List.mem_reverse, List.reverse_append, List.reverse_cons, List.append_assoc] at he
    have := List.takeWhile_append (p := fun e => !isSend e) (xs := b.reverse) (ys := [SEff.write w] ++ a.reverse)
    rw [this] at he
    split at he
    · simpa [isSend] using he
    · exact List.mem_reverse.1 ((List.takeWhile_prefix _).subset he)
  have h3 : clockUpdates (sinceSent (runServerOps rand ops c).2) = 0 := by
    unfold clockUpdates
    rw [List.filter_eq_nil_iff.2 (fun e he => by rw [hb e (h2 e he)]; decide)]
    rfl
  rw [h3] at h1
  exact List.length_eq_zero_iff.1 h1

/-- C160, as one would expect it: there is a limit to what a simulated PCI holds back. -/
def C160_claim : Prop :=
  ∃ limit : Nat, ∀ (rand : Nat → Int), Server.RandOk rand → ∀ pieces : List Bytes,
    (runServerOps rand (.made :: pieces.map .receive) ⟨[], {}⟩).1.st.queue.length ≤ limit

/-- A clock update without a confirmation code. -/
def setTime : Bytes := ascii "\\05DF000D010C2238FF\r"

theorem setTime_decoded (rest : Bytes) : decodePacket (setTime ++ rest) false true false =
    .ok (some (.pm { checksum := false, app := some 0xdf, sals := [.clockUpdate (.time ⟨12, 34, 56, 0⟩)] }), setTime.length) := by
  have h : frameClient (ascii "\\05DF000D010C2238FF" ++ 0x0d :: rest) = .line (ascii "\\05DF000D010C2238FF") 20 :=
    frameClient_line (ascii "\\05DF000D010C2238FF") rest (by decide) (by decide) (by decide) (by decide) (by decide)
  have e : setTime ++ rest = ascii "\\05DF000D010C2238FF" ++ 0x0d :: rest := by
    rw [show setTime = ascii "\\05DF000D010C2238FF" ++ [0x0d] by decide]; simp
  rw [e]
  have h2 : decodeLine (ascii "\\05DF000D010C2238FF") 20 false true false =
      .ok (some (.pm { checksum := false, app := some 0xdf, sals := [.clockUpdate (.time ⟨12, 34, 56, 0⟩)] }), 20) := by
    decide +kernel
  simp only [decodePacket, h, Bool.false_eq_true, if_false, h2]
  rfl

theorem setTime_received (rand : Nat → Int) (hr : Server.RandOk rand) (s : Server) (hc : s.connected = true)
    (hk : s.checksum = false) : ∃ o s', Server.dataReceived rand setTime ⟨[], s⟩ = (⟨[], s'⟩, o, .ok ()) ∧
      s'.connected = true ∧ s'.checksum = false ∧ s'.queue.length = s.queue.length + 2 := by
  obtain ⟨w1, w2, h⟩ := Server.onClockUpdate_eq rand hr (.time ⟨12, 34, 56, 0⟩) s
  have hp : actOn rand (some (.pm { checksum := false, app := some 0xdf, sals := [.clockUpdate (.time ⟨12, 34, 56, 0⟩)] })) s =
      ({ s with rngPos := s.rngPos + 4, queue := s.queue ++ [w1 ++ [0x0d, 0x0a], w2 ++ [0x0d, 0x0a]] },
        [.event (.clockUpdate (.time ⟨12, 34, 56, 0⟩)), .queued (w1 ++ [0x0d, 0x0a]), .queued (w2 ++ [0x0d, 0x0a])], .ok ()) := by
    simp only [actOn, Server.onPacket, Server.onSals, Server.onSal, Proc.andThen, h, pure]
    simp [Server.confirm, pure]
  have hrun := server_line rand setTime _ s _ _ 47 (by decide) (by decide) (by simp)
    (by rw [hk]; exact setTime_decoded) hc hp
  obtain ⟨p, s1, o1, o2, g1, g2, g3, -, g5⟩ := Run.prefix_ (serverChunkable rand) (by decide) hrun setTime [] (by simp)
  have hp0 := g5 rfl
  subst hp0
  have g6 : s1 = { s with rngPos := s.rngPos + 4, queue := s.queue ++ [w1 ++ [0x0d, 0x0a], w2 ++ [0x0d, 0x0a]] } := by
    generalize hb : ([] : Bytes) ++ [] = b at g2
    cases g2 with
    | nil => rfl
    | cons k1 => exact absurd (List.append_eq_nil_iff.1 hb.symm).1 k1
  subst g6
  refine ⟨o1, { s with rngPos := s.rngPos + 4, queue := s.queue ++ [w1 ++ [0x0d, 0x0a], w2 ++ [0x0d, 0x0a]] }, ?_, hc, hk, by simp⟩
  unfold Server.dataReceived dataReceived
  rw [if_neg (by show ¬(setTime.length > maxBufferSize); decide), if_neg (by show ¬([].length + setTime.length > maxBufferSize); decide)]
  exact g1

theorem setTimes_received (rand : Nat → Int) (hr : Server.RandOk rand) : ∀ (n : Nat) (s : Server), s.connected = true →
    s.checksum = false → (runServerOps rand ((List.replicate n setTime).map .receive) ⟨[], s⟩).1.st.queue.length =
      s.queue.length + 2 * n := by
  intro n
  induction n with
  | zero => intro s _ _; rfl
  | succ n ih =>
    intro s hc hk
    obtain ⟨o, s', h1, h2, h3, h4⟩ := setTime_received rand hr s hc hk
    have h5 := ih s' h2 h3
    rw [List.replicate_succ, List.map_cons]
    simp only [runServerOps, runServerOp, h1]
    rw [h5, h4]
    omega

/-- C160 is not so: each clock update without a confirmation code leaves two more packets in the queue. -/
theorem C160_grows (rand : Nat → Int) (hr : Server.RandOk rand) (n : Nat) :
    (runServerOps rand (.made :: (List.replicate n setTime).map .receive) ⟨[], {}⟩).1.st.queue.length = 2 * n := by
  have h := setTimes_received rand hr n { connected := true } rfl rfl
  have h1 : runServerOp rand .made ⟨[], {}⟩ = (⟨[], { connected := true }⟩, [.write (ascii "++\r\n")]) := by
    rfl
  simp only [runServerOps, h1]
  rw [h]
  simp

/-- C160: there is no limit. -/
theorem C160_false : ¬C160_claim := by
  rintro ⟨limit, h⟩
  have h1 := h (fun _ => 1) (fun _ => ⟨Int.le_refl 1, by show (1 : Int) ≤ 100; decide⟩) (List.replicate (limit + 1) setTime)
  rw [C160_grows (fun _ => 1) (fun _ => ⟨Int.le_refl 1, by show (1 : Int) ≤ 100; decide⟩)] at h1
  omega

/-- Three updates without a code leave six packets; one with a code sends them and its own. -/
example :
    let o := [ServerOp.made, .receive setTime, .receive setTime, .receive setTime]
    (runServerOps (fun n => n + 1) o ⟨[], {}⟩).1.st.queue.length = 6 ∧
    (runServerOps (fun n => n + 1) (o ++ [.receive (ascii "\\05DF000D010C2238FFh\r")]) ⟨[], {}⟩).1.st.queue.length = 0 := by
  decide +kernel

end CBus.Props
