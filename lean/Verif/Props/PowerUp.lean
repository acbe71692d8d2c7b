import Verif.Props.EndToEnd

/-! # C118: a PCI that powers up again is configured again -/

namespace CBus.Props
open CBus CBus.Spec
variable {π : Type}

/-- The claim: when the PCI announces that it has powered up, the client sends it what it sends it when
it connects (C46). -/
def C118_claim (π : Type) : Prop :=
  ∀ (now : Nat → PyDateTime) (s : Client), Up s →
    ∃ c1 c2 c3, cycleFrom s.nextConf 3 = [c1, c2, c3] ∧
      (writesOf (feed maxBufferSize (Client.handle (π := π) (Client.baseHook now)) [ascii "++\r\n"] ⟨[], s⟩).2.1).flatten =
        setup c1 c2 c3

/-- What a client does nothing about. -/
def Unheeded : Packet → Prop
  | .invalid _ _ => True
  | .powerOn => True
  | .pm q => q.sals = []
  | _ => False

theorem unheeded_idle (hook : Event → Proc Client (Eff π) Unit) (p : Packet) (h : Unheeded p) (s : Client) :
    Client.onPacket hook p s = (s, [], .ok ()) := by
  cases p with
  | pm q => simp only [Unheeded] at h; simp only [Client.onPacket, h, Client.onSals]; rfl
  | invalid => rfl
  | powerOn => rfl
  | _ => exact absurd h (by simp [Unheeded])

theorem idle_run (hook : Event → Proc Client (Eff π) Unit) (M : Nat) (s : Client) :
    ∀ (items : List (Bytes × Option Packet)),
    (∀ i ∈ items, i.1 ≠ [] ∧ i.1.length ≤ M ∧ (∀ p ∈ i.2, Unheeded p) ∧
      ∀ rest, decodePacket (i.1 ++ rest) true true true = .ok (i.2, i.1.length)) →
    Run (Client.handle hook) (fun b s => false = true → NoBareCal (fun _ : Client => true) b s) M s
      (items.map (·.1)).flatten [] s := by
  intro items
  induction items with
  | nil => intro _; exact .nil s
  | cons i items ih =>
    intro hi
    obtain ⟨h1, h2, hu, h3⟩ := hi i (by simp)
    have f := ih (fun j hj => hi j (by simp [hj]))
    rw [List.map_cons, List.flatten_cons]
    refine Run.cons (o1 := []) (s1 := s) h1 h2 (fun _ h => absurd h (by decide)) ?_ f
    intro rest
    unfold Client.handle handleData
    rw [show (!false) = true from rfl, h3 rest]
    have hl : 0 < i.1.length := List.length_pos_iff.mpr h1
    cases hp : i.2 with
    | none => simp [Proc.andThen, pure]
    | some p =>
      have := unheeded_idle (π := π) hook p (hu p (by simp [hp])) s
      simp [Proc.andThen, pure, this]

namespace NetEvent

/-- The bytes of the event as a PCI reports it that has not been told to append checksums. -/
def bare : NetEvent → Bytes
  | .on src ga => [0x05, byteOf src, 0x38, 0x00, 0x79, byteOf ga]
  | .off src ga => [0x05, byteOf src, 0x38, 0x00, 0x01, byteOf ga]
  | .terminate src ga => [0x05, byteOf src, 0x38, 0x00, 0x09, byteOf ga]
  | .ramp src ga d l => [0x05, byteOf src, 0x38, 0x00, byteOf (rampCode (rampDurations.idxOf (quantise d))), byteOf ga,
      byteOf l]

theorem bare_ne (e : NetEvent) : e.bare ≠ [] := by cases e <;> simp [bare]

/-- What the server writes. -/
theorem send_bare (e : NetEvent) (h : e.Ok) (rand : Nat → Int) (c : Conn Server) (hc : c.st.connected = true)
    (hcs : c.st.checksum = false) (hq : c.st.queue = []) :
    runServerOp rand e.op c = (c, [.write (b16encode e.bare ++ [0x0d, 0x0a])]) := by
  have happ : e.sal.application = appLighting := by cases e <;> rfl
  have h1 : Packet.encodePacket (.pm { e.pm with checksum := false }) = .ok (b16encode e.bare) := by
    have hb : ∀ g, IsByte g → ∀ a ∈ [g], IsByte a := by
      intro g hg a ha
      rw [List.mem_singleton] at ha
      exact ha ▸ hg
    have hx : ∃ x, encodeSals [e.sal] = .ok x ∧ e.bare = [0x05, lowByte e.src, 0x38, 0x00] ++ x := by
      cases e with
      | on src ga => exact ⟨_, listCall_on.encode [ga] (hb ga h.2.2), rfl⟩
      | off src ga => exact ⟨_, listCall_off.encode [ga] (hb ga h.2.2), rfl⟩
      | terminate src ga => exact ⟨_, listCall_terminate.encode [ga] (hb ga h.2.2), rfl⟩
      | ramp src ga d l =>
        exact ⟨_, by simp [NetEvent.sal, encodeSals, ramp_encode ga d (.int l) h.2.2.1 h.2.2.2, bind, Except.bind, pure, Except.pure]; rfl, rfl⟩
    obtain ⟨x, hx1, hx2⟩ := hx
    have ha : mkByte appLighting = .ok 0x38 := by decide
    have hr : ¬ (appLighting < 0 ∨ appLighting > 0xff) := by decide
    simp only [Packet.encodePacket, PM.encode, NetEvent.pm, hr, if_false, ha, hx1, bind, Except.bind, pure, Except.pure,
      headerBytes, hx2, Bool.false_eq_true]
    rfl
  have hs : Server.sendEvent (.ok e.sal) e.src c.st = (c.st, [.write (b16encode e.bare ++ [0x0d, 0x0a])], .ok ()) := by
    unfold Server.sendEvent
    rw [Server.eventPacket_ok, happ, hcs]
    have := Server.send_eq (Server.serialize_pm h1) c.st hc
    simp only [hq, List.map_nil] at this
    have e2 : { c.st with queue := [] } = c.st := by rw [← hq]
    rw [e2] at this
    exact this
  have hmk : ∀ (m : Py SAL), m = .ok e.sal →
      onServer (Server.sendEvent m e.src) c = (c, [.write (b16encode e.bare ++ [0x0d, 0x0a])]) := by
    intro m hm
    subst hm
    simp only [onServer, hs]
  cases e with
  | on src ga => exact hmk _ (Server.mkLightOn_spec ga h.2.2).1
  | off src ga => exact hmk _ (Server.mkLightOff_spec ga h.2.2).1
  | terminate src ga =>
    exact hmk _ (by simp [mkLightTerminate, checkGa_byte h.2.2, bind, Except.bind, pure, Except.pure, NetEvent.sal])
  | ramp src ga d l =>
    exact hmk _ (by simp [mkLightRamp, checkGa_byte h.2.2.1, bind, Except.bind, pure, Except.pure, NetEvent.sal])

theorem send_bares (rand : Nat → Int) : ∀ (es : List NetEvent), (∀ e ∈ es, e.Ok) → ∀ (c : Conn Server),
    c.st.connected = true → c.st.checksum = false → c.st.queue = [] →
    wireOf (runServerOps rand (es.map op) c).2 = (es.map fun e => b16encode e.bare ++ [0x0d, 0x0a]).flatten := by
  intro es
  induction es with
  | nil => intro _ c _ _ _; rfl
  | cons e es ih =>
    intro hok c hc hcs hq
    have h1 := e.send_bare (hok e (by simp)) rand c hc hcs hq
    have g1 := ih (fun x hx => hok x (by simp [hx])) c hc hcs hq
    simp only [List.map_cons, runServerOps, h1, List.singleton_append, List.flatten_cons, ← g1]
    rfl

/-- Too short: the last byte, taken for a checksum, is missing. -/
theorem short_body (src : UInt8) (t : Bytes) (n : Nat)
    (k : dispatch .pm false false t true .class4 = .ok (.pm { app := some 0x38, sals := [] }, 0)) :
    ∃ q : PM, decodeBody (0x05 :: src :: t) n true true false none = .ok (some (.pm q), n) ∧ q.sals = [] := by
  by_cases h : src = 0
  · refine ⟨{ app := some 0x38, sals := [] }, ?_, rfl⟩
    simp only [decodeBody, show DAT.ofCode ((0x05 : UInt8) &&& 0x07) = .ok .pm from by decide,
      show ((0x05 : UInt8) &&& 0x20 == 0x20) = false from by decide,
      show Prio.ofBits ((0x05 : UInt8) >>> 6 &&& 0x03) = .class4 from by decide, k, if_true, attach, h]
    simp
  · refine ⟨{ app := some 0x38, sals := [], src := some src.toNat }, ?_, rfl⟩
    simp only [decodeBody, show DAT.ofCode ((0x05 : UInt8) &&& 0x07) = .ok .pm from by decide,
      show ((0x05 : UInt8) &&& 0x20 == 0x20) = false from by decide,
      show Prio.ofBits ((0x05 : UInt8) >>> 6 &&& 0x03) = .class4 from by decide, k, if_true, attach]
    simp [h]

theorem short_dispatch (e : NetEvent) : ∃ src t x, e.bare = 0x05 :: src :: (t ++ [x]) ∧
    dispatch .pm false false t true .class4 = .ok (.pm { app := some 0x38, sals := [] }, 0) := by
  cases e with
  | on src ga => exact ⟨_, [0x38, 0x00, 0x79], _, rfl, by decide +kernel⟩
  | off src ga => exact ⟨_, [0x38, 0x00, 0x01], _, rfl, by decide +kernel⟩
  | terminate src ga => exact ⟨_, [0x38, 0x00, 0x09], _, rfl, by decide +kernel⟩
  | ramp src ga d l =>
    refine ⟨_, [0x38, 0x00, _, byteOf ga], _, rfl, ?_⟩
    have hq : rampDurations.idxOf (quantise d) < 16 := by
      have : quantise d ∈ rampDurations := (quantise_spec d).1
      exact List.idxOf_lt_length_of_mem this
    generalize rampDurations.idxOf (quantise d) = k at hq
    generalize byteOf ga = g
    have key : ∀ k : Fin 16, ∀ g : UInt8, dispatch .pm false false [0x38, 0x00, byteOf (rampCode k.1 : Nat), g] true .class4 =
        .ok (.pm { app := some 0x38, sals := [] }, 0) := by
      intro k; apply forall_byte; revert k; decide +kernel
    exact key ⟨k, hq⟩ g

/-- A client takes such a line, and makes nothing of it. -/
theorem bare_decodes (e : NetEvent) : ∃ p, Unheeded p ∧ ∀ rest,
    decodePacket (b16encode e.bare ++ [0x0d, 0x0a] ++ rest) true true true =
      .ok (some p, (b16encode e.bare ++ [0x0d, 0x0a]).length) := by
  have hl : (b16encode e.bare ++ [0x0d, 0x0a]).length = 2 * e.bare.length + 2 := by
    rw [List.length_append, b16encode_length]; rfl
  rw [hl]
  have hd : ∀ rest, decodePacket (b16encode e.bare ++ [0x0d, 0x0a] ++ rest) true true true =
      decodeRaw e.bare (2 * e.bare.length + 2) true true true false none := by
    intro rest
    rw [List.append_assoc]
    exact decodePacket_pci_raw e.bare rest e.bare_ne true true
  obtain ⟨src, t, x, h1, h2⟩ := e.short_dispatch
  cases hv : validateChecksum e.bare with
  | error err =>
    have hg : (src :: (t ++ [x])).getLast? = some x := by
      rw [show src :: (t ++ [x]) = (src :: t) ++ [x] from rfl, List.getLast?_concat]
    rw [h1] at hv
    simp [validateChecksum, hg] at hv
  | ok v =>
    cases v with
    | false =>
      refine ⟨.invalid e.bare .valueError, trivial, fun rest => ?_⟩
      rw [hd]; simp [decodeRaw, hv]
    | true =>
      obtain ⟨q, q1, q2⟩ := short_body src t (2 * e.bare.length + 2) h2
      refine ⟨.pm q, q2, fun rest => ?_⟩
      rw [hd]
      have : e.bare.dropLast = 0x05 :: src :: t := by
        rw [h1, show (0x05 :: src :: (t ++ [x]) : Bytes) = (0x05 :: src :: t) ++ [x] from rfl, List.dropLast_concat]
      simp only [decodeRaw, hv, this]
      simpa using q1

theorem bare_length (e : NetEvent) : (b16encode e.bare ++ [0x0d, 0x0a]).length ≤ 20 := by
  rw [List.length_append, b16encode_length]
  cases e <;> simp [bare]

end NetEvent

/-- C118: after a PCI has powered up again, nothing that happens on the network reaches a
client of any kind (`hook` is what its handlers do), however the bytes arrive and whatever has been
received before; and the client says nothing to the PCI that would change that. -/
theorem C118_deaf (hook : Event → Proc Client (Eff π) Unit) (rand : Nat → Int) (es : List NetEvent)
    (hok : ∀ e ∈ es, e.Ok) (s : Client) (chunks : List Bytes)
    (hch : chunks.flatten = wireOf (runServerOps rand (.made :: es.map NetEvent.op) ⟨[], {}⟩).2)
    (hf : Fits maxBufferSize (Client.handle hook) chunks ⟨[], s⟩) :
    feed maxBufferSize (Client.handle hook) chunks ⟨[], s⟩ = (⟨[], s⟩, [], .ok ()) := by
  have hmade : runServerOp rand .made ⟨[], {}⟩ = (⟨[], { connected := true }⟩, [.write (ascii "++\r\n")]) := by rfl
  rw [runServerOps, hmade] at hch
  simp only [wireOf_append, NetEvent.send_bares rand es hok ⟨[], { connected := true }⟩ rfl rfl rfl] at hch
  have hb : ∀ e : NetEvent, ∃ p, Unheeded p ∧ ∀ rest,
    decodePacket (b16encode e.bare ++ [0x0d, 0x0a] ++ rest) true true true =
      .ok (some p, (b16encode e.bare ++ [0x0d, 0x0a]).length) := NetEvent.bare_decodes
  have r := idle_run hook 20 s (([0x2b], some .powerOn) :: ([0x2b], some .powerOn) :: ([0x0d, 0x0a], none) ::
      es.map fun e => (b16encode e.bare ++ [0x0d, 0x0a], some (hb e).choose)) (by
    intro j hj
    simp only [List.mem_cons, List.mem_map] at hj
    rcases hj with rfl | rfl | rfl | ⟨e, he, rfl⟩
    · exact ⟨by simp, by simp, by simp [Unheeded], fun rest => rfl⟩
    · exact ⟨by simp, by simp, by simp [Unheeded], fun rest => rfl⟩
    · refine ⟨by simp, by simp, by simp, fun rest => ?_⟩
      have := framePci_line [] rest (by simp) (by simp)
      simp only [List.nil_append] at this
      simp [decodePacket, this, decodeLine]
    · refine ⟨by simp, NetEvent.bare_length e, ?_, (hb e).choose_spec.2⟩
      intro p hp
      simp only [Option.mem_def, Option.some.injEq] at hp
      exact hp ▸ (hb e).choose_spec.1)
  have hflat : chunks.flatten = ((([0x2b], some Packet.powerOn) :: ([0x2b], some .powerOn) :: ([0x0d, 0x0a], none) ::
      es.map fun e => (b16encode e.bare ++ [0x0d, 0x0a], some (hb e).choose)).map (·.1)).flatten := by
    rw [hch]
    simp [Function.comp_def, wireOf, show ascii "++\r\n" = [0x2b, 0x2b, 0x0d, 0x0a] by decide]
  rw [← hflat] at r
  exact Run.feed (clientChunkable hook) (by decide) maxBufferSize chunks [] r hf

/-- The claim fails for every client. -/
theorem C118_false : ¬ C118_claim π := by
  intro h
  obtain ⟨c1, c2, c3, -, h2⟩ := h (fun _ => ⟨⟨2024, 2, 29⟩, ⟨13, 1, 2, 0⟩⟩) { connected := true } ⟨rfl, by decide⟩
  have h0 := C118_deaf (π := π) (Client.baseHook fun _ => ⟨⟨2024, 2, 29⟩, ⟨13, 1, 2, 0⟩⟩) (fun _ => 1) [] (by simp)
    { connected := true } [ascii "++\r\n"] (by decide +kernel) ⟨by decide, fun _ _ _ => trivial⟩
  rw [h0] at h2
  simp [writesOf, setup] at h2

/-- What does hold: a PCI that has powered up before the client connects is configured by the client. -/
theorem C118_connect_partial (rand : Nat → Int) (cl : Client) (hk : cl.nextConf < 20) (pieces : List Bytes)
    (hp : pieces.flatten = (writesOf (Client.connectionMade (π := π) cl).2.1).flatten)
    (hpf : Fits maxBufferSize (Server.handle rand) pieces ⟨[], { connected := true }⟩) :
    ∃ t o, runServerOps rand (.made :: pieces.map .receive) ⟨[], {}⟩ = (⟨[], t⟩, o) ∧ t.connected = true ∧
      t.checksum = true ∧ t.queue = [] := by
  obtain ⟨c1, c2, c3, h1, h2⟩ := C46_connect (π := π) cl hk
  have hw : (writesOf (Client.connectionMade (π := π) cl).2.1).flatten = setup c1 c2 c3 := by
    rw [h2]
    have : writesOf ([.write (ascii "~\r"), .write (ascii "~\r"), .write (ascii "~\r"),
          .write (ascii "A3210038" ++ [c1, 0x0d]), .write (ascii "A342000E" ++ [c2, 0x0d]),
          .write (ascii "A3300059" ++ [c3, 0x0d])] ++ (if cl.timesync = 0 then [] else [Eff.startTimesync (π := π)])) =
        [ascii "~\r", ascii "~\r", ascii "~\r", ascii "A3210038" ++ [c1, 0x0d], ascii "A342000E" ++ [c2, 0x0d],
          ascii "A3300059" ++ [c3, 0x0d]] := by split <;> rfl
    rw [this]
    simp [setup]
  rw [hw] at hp
  obtain ⟨t, o, g1, g2, g3, g4, -⟩ := setup_wire rand cl.nextConf hk c1 c2 c3 h1 pieces hp hpf
  have hmade : runServerOp rand .made ⟨[], {}⟩ = (⟨[], { connected := true }⟩, [.write (ascii "++\r\n")]) := by rfl
  refine ⟨t, [.write (ascii "++\r\n")] ++ o, ?_, g2, g3, g4⟩
  rw [runServerOps, hmade]
  simp only [g1]

/-- A client that is connected and up, a PCI that loses its power and comes back, and two events:
the client hears of neither, and a PCI that it does configure reports the same two so that it does. -/
example :
    let now : Nat → PyDateTime := fun _ => ⟨⟨2024, 2, 29⟩, ⟨13, 1, 2, 0⟩⟩
    let es := [NetEvent.on 5 1, .ramp 7 2 5 128]
    let w := wireOf (runServerOps (fun _ => 1) (.made :: es.map NetEvent.op) ⟨[], {}⟩).2
    let w' := wireOf (runServerOps (fun _ => 1) (es.map NetEvent.op) ⟨[], { connected := true, checksum := true }⟩).2
    w = ascii "++\r\n050538007901\r\n05073800120280\r\n" ∧
    eventsOf (feed maxBufferSize (Client.handle (π := Nat) (Client.baseHook now)) [w] ⟨[], { connected := true }⟩).2.1 = [] ∧
    eventsOf (feed maxBufferSize (Client.handle (π := Nat) (Client.baseHook now)) [w'] ⟨[], { connected := true }⟩).2.1 =
      [.lightingOn (some 5) 1, .lightingRamp (some 7) 2 8 (.int 128)] := by decide +kernel

end CBus.Props
