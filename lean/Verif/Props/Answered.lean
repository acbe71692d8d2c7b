import Verif.Props.Dented

/-! # C177: what the client hears of its commands -/

namespace CBus.Props
open CBus CBus.Spec
variable {π : Type}

/-- A call for lights. -/
def ForLights : ClientCall → Prop
  | .on _ | .off _ | .terminate _ | .ramp _ _ _ => True
  | _ => False

instance (c : ClientCall) : Decidable (ForLights c) := by cases c <;> (unfold ForLights; infer_instance)

/-- A command to a light only makes its event. -/
def IsLightSal : SAL → Prop
  | .lightOn _ | .lightOff _ | .lightTerminate _ | .lightRamp _ _ _ => True
  | _ => False

theorem onSals_lights (rand : Nat → Int) : ∀ (l : List SAL), (∀ x ∈ l, IsLightSal x) → ∀ s : Server,
    ∃ o, Server.onSals rand l s = (s, o, .ok true) ∧ wireOf o = []
  | [], _, _ => ⟨[], rfl, rfl⟩
  | x :: l, h, s => by
    obtain ⟨o1, h1, h2⟩ : ∃ o, Server.onSal rand x s = (s, o, .ok true) ∧ wireOf o = [] := by
      have hx := h x (by simp)
      cases x with
      | lightOn | lightOff | lightTerminate | lightRamp => exact ⟨_, rfl, rfl⟩
      | _ => exact absurd hx (by simp [IsLightSal])
    obtain ⟨o2, h3, h4⟩ := onSals_lights rand l (fun y hy => h y (by simp [hy])) s
    have he : Server.onSals rand (x :: l) s = Proc.andThen (Server.onSal rand x)
        (fun go => if go then Server.onSals rand l else pure false) s := rfl
    refine ⟨o1 ++ o2, ?_, by rw [wireOf_append, h2, h4]; rfl⟩
    rw [he, andThen_ok h1]
    simp only [if_true, h3]

theorem callSals_lights (now : PyDateTime) (call : ClientCall) (h : ForLights call) :
    ∀ x ∈ (callSals now call).map received, IsLightSal x := by
  intro x hx
  obtain ⟨y, hy, rfl⟩ := List.mem_map.1 hx
  cases call <;> simp only [ForLights] at h
  all_goals
    simp only [callSals, List.mem_map, List.mem_singleton] at hy
    first
      | (obtain ⟨g, -, rfl⟩ := hy; trivial)
      | (subst hy; trivial)

/-- In smart mode a command for lights is answered with its confirmation and nothing else. -/
theorem run_light (rand : Nat → Int) (now : PyDateTime) (hnow : DateTimeOk now) (call : ClientCall) (hl : ForLights call)
    (hok : call.Ok) (ht : call.TimeOk) (c : UInt8) (hcode : c ∈ confirmationCodes) (t : Server) (hc : t.connected = true)
    (hq : t.queue = []) (hcs : t.checksum = true) (hb : t.basic = false) :
    ∃ o, Run (Server.handle rand) ServerG 47 t (0x5c :: b16encode (addChecksum (call.frame now PyDate.weekday)) ++ [c, 0x0d]) o t ∧
      wireOf o = [c, 0x2e] := by
  have hbc : IsBroadcast call := by cases call <;> first | trivial | exact hl.elim
  obtain ⟨app, h1, h2, h3⟩ := call_packet now hnow PyDate.weekday (fun d hd => isWeekday_weekday d hd) call hbc hok ht
  obtain ⟨w, e1, e2⟩ := C25_command _ h1 rfl
  rw [h2, Except.ok.injEq] at e1
  subst e1
  have hlen : (b16encode (addChecksum (call.frame now PyDate.weekday))).length ≤ 44 := by
    rw [b16encode_length]
    simp only [addChecksum, List.length_append, List.length_cons, List.length_nil]
    omega
  obtain ⟨o1, g1, g2⟩ := onSals_lights rand ((callSals now call).map received) (callSals_lights now call hl) t
  have hx : Server.confirm (some c) t = (t, [.write [c, 0x2e]], .ok ()) := by
    have := Server.sendConfirmation_eq hcode true t hc
    rw [hq] at this
    have e : ({ t with queue := [] } : Server) = t := by rw [← hq]
    rw [e] at this
    exact this
  have hp : actOn rand (some (.pm { app := some app, sals := (callSals now call).map received, conf := some c })) t =
      (t, o1 ++ [.write [c, 0x2e]], .ok ()) := by
    show Proc.andThen (Server.onSals rand ((callSals now call).map received))
      (fun go => if go then Server.confirm (some c) else pure ()) t = _
    rw [andThen_ok g1]
    simp only [if_true, hx]
  refine ⟨_, server_line rand _ _ t t _ 47 (by simp) ?_ (by simp) ?_ hc hp, ?_⟩
  · simp only [List.length_append, List.length_cons, List.length_nil]; omega
  · intro rest
    have := e2 (some c) rest true (by intro x hx; cases hx; exact hcode)
    rw [hcs]
    simp only [Option.toList_some, List.cons_append, List.append_assoc, List.nil_append, List.length_cons, List.length_nil,
      List.length_append] at this ⊢
    rw [this]
    congr 3
    omega
  · rw [hb]
    simp only [Bool.false_eq_true, if_false, List.nil_append, wireOf_append, g2]
    rfl

/-- In smart mode a damaged command is not answered. -/
theorem run_dented_smart (rand : Nat → Int) (t : Server) (hc : t.connected = true) (hcs : t.checksum = true) (hb : t.basic = false)
    (m l : Bytes) (code : UInt8) (hcode : code ∈ confirmationCodes) (hlen : (b16encode (addChecksum m)).length ≤ 44)
    (hd : Dented (0x5c :: b16encode (addChecksum m) ++ [code, 0x0d]) l) :
    Run (Server.handle rand) ServerG 47 t l [] t := by
  have h := run_dented rand t hc hcs m l code hcode hlen hd
  rw [hb] at h
  exact h

theorem run_answers (rand : Nat → Int) (now : Nat → PyDateTime) (hnow : ∀ n, DateTimeOk (now n))
    (hook : Event → Proc Client (Eff π) Unit) (t : Server) (hc : t.connected = true) (hq : t.queue = [])
    (hcs : t.checksum = true) (hsm : t.basic = false) : ∀ (calls : List ClientCall),
    (∀ k ∈ calls, ForLights k ∧ k.Ok ∧ k.TimeOk) → ∀ (cl : Conn Client), cl.st.connected = true → cl.st.nextConf < 20 →
    ∀ (bs : List Bool) (ls : List Bytes), Through (writesOf (runOps hook now (calls.map .call) cl).2) bs ls →
    ∃ o, Run (Server.handle rand) ServerG 47 t ls.flatten o t ∧
      wireOf o = ((spared bs (cycleFrom cl.st.nextConf calls.length)).map confirmationFor).flatten := by
  intro calls
  induction calls with
  | nil =>
    intro _ cl _ _ bs ls h
    simp only [List.map_nil, runOps] at h
    cases h
    exact ⟨[], .nil t, rfl⟩
  | cons call calls ih =>
    intro hall cl hcc hk bs ls h
    obtain ⟨hl, hok, ht⟩ := hall call (by simp)
    obtain ⟨c, hc1, hc2⟩ := code_at hk
    obtain ⟨hw, hcyc⟩ := writes_cons now hnow hook call calls hok ht cl hcc c hc1 hk
    have ih' := ih (fun k hk => hall k (by simp [hk]))
      { cl with st := { cl.st with nextConf := (cl.st.nextConf + 1) % 20, clockReads := cl.st.clockReads + if call = .clockNow then 1 else 0 } }
      hcc (Nat.mod_lt _ (by decide))
    rw [hw] at h
    rw [hcyc]
    cases h with
    | whole _ _ bs ls h =>
      obtain ⟨o1, r1, e1⟩ := run_light rand (now cl.st.clockReads) (hnow _) call hl hok ht c hc2 t hc hq hcs hsm
      obtain ⟨o2, r2, e2⟩ := ih' bs ls h
      refine ⟨o1 ++ o2, by simpa using r1.append r2, ?_⟩
      rw [wireOf_append, e1, e2, spared_true]
      rfl
    | dented _ l _ bs ls hd h =>
      have hbc : IsBroadcast call := by cases call <;> first | trivial | exact hl.elim
      have r1 := run_dented_smart rand t hc hcs hsm _ l c hc2 (frame_short (now cl.st.clockReads) (hnow _) call hbc hok ht) hd
      obtain ⟨o2, r2, e2⟩ := ih' bs ls h
      exact ⟨o2, by simpa using r1.append r2, by rw [e2, spared_false]⟩
    | lost _ _ bs _ h =>
      obtain ⟨o2, r2, e2⟩ := ih' bs ls h
      exact ⟨o2, r2, by rw [e2, spared_false]⟩

/-- C177: a client calls for lights, in any number and order, at a simulated PCI in smart mode with checksums on. Some of the
commands are damaged in a digit or lost. All that comes back are the confirmations of the others; and the client is told of
these, in order, as successes, and of nothing else. Both ways, what is sent may come in any pieces that are not too long. -/
theorem C177_answers (rand : Nat → Int) (now : Nat → PyDateTime) (hnow : ∀ n, DateTimeOk (now n))
    (hook : Event → Proc Client (Eff π) Unit) (calls : List ClientCall) (hall : ∀ k ∈ calls, ForLights k ∧ k.Ok ∧ k.TimeOk)
    (cl : Conn Client) (hcl : cl.st.connected = true) (hk : cl.st.nextConf < 20)
    (t : Server) (hc : t.connected = true) (hq : t.queue = []) (hcs : t.checksum = true) (hb : t.basic = false)
    (bs : List Bool) (ls : List Bytes) (hth : Through (writesOf (runOps hook now (calls.map .call) cl).2) bs ls)
    (there : List Bytes) (hthere : there.flatten = ls.flatten) (hsm : ∀ d ∈ there, d.length ≤ 209)
    (s : Client) (hu : Up s) (back : List Bytes)
    (hback : back.flatten = wireOf (feed maxBufferSize (Server.handle rand) there ⟨[], t⟩).2.1) (hbm : ∀ d ∈ back, d.length ≤ 254) :
    ∃ r, feed maxBufferSize (Client.handle (π := π) (Client.baseHook now)) back ⟨[], s⟩ = r ∧
      (feed maxBufferSize (Server.handle rand) there ⟨[], t⟩).2.2 = .ok () ∧ r.2.2 = .ok () ∧ r.1.buf = [] ∧
      eventsOf r.2.1 = (spared bs (cycleFrom cl.st.nextConf calls.length)).map fun c => .confirmation [c] true := by
  obtain ⟨o, h1, h2⟩ := run_answers rand now hnow hook t hc hq hcs hb calls hall cl hcl hk bs ls hth
  rw [← hthere] at h1
  have hf := Run.fits (serverChunkable rand) (by decide) maxBufferSize (by decide) there o h1 hsm
  have h3 := Run.feed (serverChunkable rand) (by decide) maxBufferSize there o h1 hf
  rw [h3] at hback ⊢
  refine ⟨_, rfl, rfl, ?_⟩
  generalize hcs : spared bs (cycleFrom cl.st.nextConf calls.length) = codes at h2 ⊢
  have hmem : ∀ c ∈ codes, c ∈ confirmationCodes := by
    intro c hc
    rw [← hcs] at hc
    have := spared_mem _ _ hc
    unfold cycleFrom at this
    obtain ⟨i, -, rfl⟩ := List.mem_map.1 this
    have key : ∀ k : Fin 20, (ascii "hijklmnopqrstuvwxyzg").getD k.1 0 ∈ confirmationCodes := by decide +kernel
    exact key ⟨_, Nat.mod_lt _ (by decide)⟩
  obtain ⟨s', o', r1, -, e1⟩ := client_run (π := π) now hnow 2
    (codes.map fun c => ([c, 0x2e], some (Packet.confirmation [c] true))) s hu (by
      intro i hi
      obtain ⟨c, hc, rfl⟩ := List.mem_map.1 hi
      refine ⟨by simp, by simp, ?_⟩
      exact (code_lineFor c 0x2e (hmem c hc)).2)
  have hfl : ((codes.map fun c => (([c, 0x2e] : Bytes), some (Packet.confirmation [c] true))).map (·.1)).flatten = back.flatten := by
    rw [hback]
    simp only [h2, List.map_map]
    rfl
  rw [hfl] at r1
  have hf' := Run.fits (clientChunkable _) (by decide) maxBufferSize (by decide) back o' r1 hbm
  rw [Run.feed (clientChunkable _) (by decide) maxBufferSize back o' r1 hf']
  refine ⟨rfl, rfl, ?_⟩
  rw [e1]
  clear e1 r1 hf' hfl hmem h2 hcs
  induction codes with
  | nil => rfl
  | cons c codes ih => simp only [List.map_cons, List.flatMap_cons, ih]; rfl

/-- C177: of up to twenty calls, the client is told of those that were carried out, and of no others. -/
theorem C177_known (rand : Nat → Int) (now : Nat → PyDateTime) (hnow : ∀ n, DateTimeOk (now n))
    (hook : Event → Proc Client (Eff π) Unit) (calls : List ClientCall) (h20 : calls.length ≤ 20)
    (hall : ∀ k ∈ calls, ForLights k ∧ k.Ok ∧ k.TimeOk)
    (cl : Conn Client) (hcl : cl.st.connected = true) (hk : cl.st.nextConf < 20)
    (t : Server) (hc : t.connected = true) (hq : t.queue = []) (hcs : t.checksum = true) (hb : t.basic = false)
    (bs : List Bool) (ls : List Bytes) (hth : Through (writesOf (runOps hook now (calls.map .call) cl).2) bs ls)
    (there : List Bytes) (hthere : there.flatten = ls.flatten) (hsm : ∀ d ∈ there, d.length ≤ 209)
    (s : Client) (hu : Up s) (back : List Bytes)
    (hback : back.flatten = wireOf (feed maxBufferSize (Server.handle rand) there ⟨[], t⟩).2.1) (hbm : ∀ d ∈ back, d.length ≤ 254)
    (i : Nat) (c : UInt8) (hi : (cycleFrom cl.st.nextConf calls.length)[i]? = some c) :
    .confirmation [c] true ∈ eventsOf (feed maxBufferSize (Client.handle (π := π) (Client.baseHook now)) back ⟨[], s⟩).2.1 ↔
      bs[i]? = some true := by
  obtain ⟨r, h1, -, -, -, h2⟩ := C177_answers rand now hnow hook calls hall cl hcl hk t hc hq hcs hb bs ls hth there hthere hsm
    s hu back hback hbm
  rw [h1, h2, ← spared_iff bs _ i (cycle_nodup _ _ h20) hi]
  simp only [List.mem_map, Event.confirmation.injEq, List.cons.injEq, and_true, exists_eq_right]

/-- The commands of the example for C176, the second damaged and the third lost, and what comes back of them, a character at a
time. -/
example :
    let ls := [ascii "\\053800790149h\r", ascii "\\053800790348i\r", ascii "\\053800790446k\r"]
    let v := feed maxBufferSize (Server.handle fun _ => 1) [ls.flatten] ⟨[], { connected := true, checksum := true, basic := false }⟩
    let r := feed maxBufferSize (Client.handle (π := Nat) (Client.baseHook fun _ => someTime)) ((wireOf v.2.1).map fun b => [b])
      ⟨[], { connected := true, future := .pending }⟩
    (∀ k ∈ [ClientCall.on [1], .on [2], .on [3], .on [4]], ForLights k) ∧ wireOf v.2.1 = ascii "h.k." ∧
    eventsOf r.2.1 = [.confirmation (ascii "h") true, .confirmation (ascii "k") true] := by
  decide +kernel

end CBus.Props
