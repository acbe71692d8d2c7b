import Verif.Lemmas.Buffer
import Verif.Model.Client
import Verif.Model.Server

/-! # C39 – C42: reception -/

namespace CBus.Props
open CBus CBus.Spec

variable {σ ω : Type}

/-! ## C39 -/

theorem processBuffer_length (handle : Bytes → Proc σ ω Int) : ∀ (k : Nat) (b : Bytes) (s : σ),
    b.length ≤ k → (processBuffer handle b s).1.buf.length ≤ b.length := by
  intro k
  induction k with
  | zero =>
    intro b s hk
    have : b = [] := List.eq_nil_of_length_eq_zero (by omega)
    subst this
    rw [processBuffer_nil]; simp
  | succ k ih =>
    intro b s hk
    rw [processBuffer]
    split
    · simp
    · rename_i hb
      have := List.length_pos_iff.mpr hb
      split
      · simp
      · split
        · simp
        · split
          · simp
          · split
            · rename_i r _ _ _ hr
              have := ih (b.drop r.toNat) (by assumption) (by simp only [List.length_drop]; omega)
              simp only [List.length_drop] at this
              show (processBuffer handle (b.drop r.toNat) _).1.buf.length ≤ b.length
              omega
            · simp

theorem dataReceived_length (limit : Nat) (handle : Bytes → Proc σ ω Int) (d : Bytes) (c : Conn σ)
    (hc : c.buf.length ≤ limit) : (dataReceived limit handle d c).1.buf.length ≤ limit := by
  unfold dataReceived
  split
  · exact hc
  · split
    · simp
    · refine Nat.le_trans (processBuffer_length handle _ _ _ (Nat.le_refl _)) ?_
      simp only [List.length_append]
      omega

/-- A history of a protocol object: before each reception anything may happen to
the rest of the object, and exceptions are caught by the caller. -/
def history (limit : Nat) (handle : Bytes → Proc σ ω Int) (c : Conn σ) (h : List ((σ → σ) × Bytes)) :
    Conn σ :=
  h.foldl (fun c x => (dataReceived limit handle x.2 { c with st := x.1 c.st }).1) c

/-- C39: whatever is received, whatever the handler returns or raises, and
whatever happens in between, the buffer never holds more than the limit. -/
theorem C39_bounded (limit : Nat) (handle : Bytes → Proc σ ω Int) (s : σ)
    (h : List ((σ → σ) × Bytes)) : (history limit handle ⟨[], s⟩ h).buf.length ≤ limit := by
  have key : ∀ (h : List ((σ → σ) × Bytes)) (c : Conn σ), c.buf.length ≤ limit →
      (history limit handle c h).buf.length ≤ limit := by
    intro h
    induction h with
    | nil => intro c hc; exact hc
    | cons x xs ih =>
      intro c hc
      exact ih _ (dataReceived_length limit handle x.2 _ hc)
  exact key h _ (by simp)

/-- C39: what happens at the limit. -/
theorem C39_overflow (limit : Nat) (handle : Bytes → Proc σ ω Int) (d : Bytes) (c : Conn σ) :
    (limit < d.length → dataReceived limit handle d c = (c, [], .error .valueError)) ∧
    (d.length ≤ limit → limit < c.buf.length + d.length →
      dataReceived limit handle d c = (⟨[], c.st⟩, [], .error .valueError)) ∧
    (c.buf.length + d.length ≤ limit →
      dataReceived limit handle d c = processBuffer handle (c.buf ++ d) c.st) := by
  unfold dataReceived
  refine ⟨fun h => by rw [if_pos h], fun h1 h2 => by rw [if_neg (by omega), if_pos h2],
    fun h => by rw [if_neg (by omega), if_neg (by omega)]⟩

/-- C39: what the handler's result means, for any handler. -/
theorem C39_contract (handle : Bytes → Proc σ ω Int) (b : Bytes) (hb : b ≠ []) (s s1 : σ) (o : List ω) (r : Int)
    (h : handle b s = (s1, o, .ok r)) :
    (0 < r → processBuffer handle b s = ((processBuffer handle (b.drop r.toNat) s1).1,
      o ++ (processBuffer handle (b.drop r.toNat) s1).2.1, (processBuffer handle (b.drop r.toNat) s1).2.2)) ∧
    (r = 0 → processBuffer handle b s = (⟨b, s1⟩, o, .ok ())) ∧
    (r = -1 → processBuffer handle b s = (⟨[], s1⟩, o, .ok ())) ∧
    (r < -1 → processBuffer handle b s = (⟨[], s1⟩, o, .error .valueError)) := by
  rw [processBuffer, dif_neg hb]
  simp only [h]
  refine ⟨fun hr => ?_, fun hr => ?_, fun hr => ?_, fun hr => ?_⟩
  · rw [if_neg (by omega), if_neg (by omega), dif_pos hr]
  · rw [if_neg (by omega), if_neg (by omega), dif_neg (by omega)]
  · rw [if_neg (by omega), if_pos hr]
  · rw [if_pos hr]

/-- The limit of the C-Bus protocol classes. -/
theorem C39_limit : maxBufferSize = 256 := rfl

/-- A handler that takes three bytes whenever there are four: the buffer keeps what is left, is emptied by
a piece that does not fit behind it, and is untouched by a piece that is too long by itself. -/
example :
    let handle : Bytes → Proc Nat Bytes Int := fun b s =>
      if b.length < 4 then (s, [], .ok 0) else (s + 1, [b.take 3], .ok 3)
    dataReceived 6 handle [4, 5, 6] ⟨[1, 2, 3], 0⟩ = (⟨[4, 5, 6], 1⟩, [[1, 2, 3]], .ok ()) ∧
    dataReceived 6 handle [4, 5, 6, 7] ⟨[1, 2, 3], 0⟩ = (⟨[], 0⟩, [], .error .valueError) ∧
    dataReceived 6 handle [4, 5, 6, 7, 8, 9, 10] ⟨[1, 2, 3], 0⟩ = (⟨[1, 2, 3], 0⟩, [], .error .valueError) := by
  intro handle
  refine ⟨?_, rfl, rfl⟩
  rw [(C39_overflow 6 handle _ _).2.2 (by decide), (C39_contract handle _ (by decide) 0 1 [[1, 2, 3]] 3 rfl).1 (by decide),
    (C39_contract handle _ (by decide) 1 1 [] 0 rfl).2.1 rfl]
  rfl

/-! ## C40, C41 -/

/-- "The first message in the buffer is not a bare CAL". -/
def NoBareCal (checksum : σ → Bool) (buf : Bytes) (s : σ) : Prop :=
  ∀ x n, decodePacket buf (checksum s) true false ≠ .ok (some (.cal x), n)

variable (checksum : σ → Bool) (echo : Bytes → Proc σ ω Unit) (onPacket : Packet → Proc σ ω Unit)

theorem handleData_ok {emu : Bool} {b : Bytes} {s : σ} {r : Int}
    (h : (handleData emu checksum echo onPacket b s).2.2 = .ok r) :
    ∃ p n, decodePacket b (checksum s) true (!emu) = .ok (p, n) ∧ r = n := by
  unfold handleData at h
  split at h
  · cases h
  · rename_i p n hd
    refine ⟨p, n, hd, ?_⟩
    simp only [Proc.andThen] at h
    split at h
    · cases h
    · simp only at h
      split at h
      · cases h
      · simp only [pure, Except.ok.injEq] at h
        exact h.symm

theorem handleData_none {emu : Bool} {b : Bytes} {s : σ}
    (h : decodePacket b (checksum s) true (!emu) = .ok (none, 0)) :
    handleData emu checksum echo onPacket b s = (s, [], .ok 0) := by
  simp [handleData, h, Proc.andThen, pure]

theorem handleData_chunkable (emu : Bool) :
    Chunkable (handleData emu checksum echo onPacket)
      (fun b s => emu = true → NoBareCal checksum b s) := by
  have zero : ∀ b s, (handleData emu checksum echo onPacket b s).2.2 = .ok 0 →
      decodePacket b (checksum s) true (!emu) = .ok (none, 0) := by
    intro b s h
    obtain ⟨p, n, h1, h2⟩ := handleData_ok checksum echo onPacket h
    have hn : n = 0 := by omega
    subst hn
    cases p with
    | none => exact h1
    | some q => exact absurd (C34_progress _ _ _ _ _ _ h1) (by omega)
  have stab : ∀ b more s, decodePacket b (checksum s) true (!emu) ≠ .ok (none, 0) →
      decodePacket (b ++ more) (checksum s) true (!emu) = decodePacket b (checksum s) true (!emu) :=
    fun b more s h => C35_prefix_stable b more _ _ _ h
  have pos : ∀ b more s p n, (emu = true → NoBareCal checksum (b ++ more) s) →
      decodePacket b (checksum s) true (!emu) = .ok (p, n) → n ≤ b.length := by
    intro b more s p n hg h
    rcases (C33_position_partial _ _ _ _ _ _ h).1 with h1 | ⟨h1, x, h2⟩
    · exact h1
    · subst h2
      have he : emu = true := by simpa using h1
      subst he
      have h3 : decodePacket b (checksum s) true (!true) ≠ .ok (none, 0) := by rw [h]; simp
      exact absurd ((stab b more s h3).trans h) (hg rfl x n)
  refine ⟨?_, ?_, ?_⟩
  · intro b s h
    exact handleData_none checksum echo onPacket (zero b s h)
  · intro b more s hg h
    have hne : decodePacket b (checksum s) true (!emu) ≠ .ok (none, 0) := by
      intro he
      exact h (by rw [handleData_none checksum echo onPacket he])
    have he := stab b more s hne
    unfold handleData
    rw [he]
    cases hd : decodePacket b (checksum s) true (!emu) with
    | error e => rfl
    | ok v =>
      obtain ⟨p, n⟩ := v
      have hn := pos b more s p n hg hd
      simp only
      rw [List.take_append_of_le_length hn]
  · intro b more s r hg h
    obtain ⟨p, n, h1, h2⟩ := handleData_ok checksum echo onPacket h
    have := pos b more s p n hg h1
    omega

/-- Chopping does not matter, for either side of the protocol. -/
theorem chop_invariant (emu : Bool) (limit : Nat) (c : Conn σ) (chunks1 chunks2 : List Bytes)
    (hidle : processBuffer (handleData emu checksum echo onPacket) c.buf c.st = (c, [], .ok ()))
    (heq : chunks1.flatten = chunks2.flatten)
    (hf1 : Fits limit (handleData emu checksum echo onPacket) chunks1 c)
    (hf2 : Fits limit (handleData emu checksum echo onPacket) chunks2 c)
    (hg : emu = true → ∀ b s, Reach (handleData emu checksum echo onPacket)
      (c.buf ++ chunks1.flatten) c.st b s → NoBareCal checksum b s) :
    let r1 := feed limit (handleData emu checksum echo onPacket) chunks1 c
    let r2 := feed limit (handleData emu checksum echo onPacket) chunks2 c
    r1.2 = r2.2 ∧ r1.1.st = r2.1.st ∧ (r1.2.2 = .ok () → r1.1 = r2.1) := by
  intro r1 r2
  have hc := handleData_chunkable checksum echo onPacket emu
  obtain ⟨rest1, h1, k1⟩ := feed_whole hc limit chunks1 c hidle hf1
    (fun b s h he => hg he b s h)
  obtain ⟨rest2, h2, k2⟩ := feed_whole hc limit chunks2 c hidle hf2
    (fun b s h he => hg he b s (by rw [heq]; exact h))
  rw [heq, h2] at h1
  simp only [Prod.mk.injEq, Conn.mk.injEq] at h1
  obtain ⟨⟨e1, e2⟩, e3, e4⟩ := h1
  refine ⟨?_, e2.symm, ?_⟩
  · exact Prod.ext e3.symm e4.symm
  · intro hok
    have z1 := k1 hok
    have z2 := k2 (e4.trans hok)
    rw [z1, z2] at e1
    simp only [List.append_nil] at e1
    show r1.1 = r2.1
    rcases hr1 : r1.1 with ⟨b1, s1⟩
    rcases hr2 : r2.1 with ⟨b2, s2⟩
    have e1' : r2.1.buf = r1.1.buf := e1
    have e2' : r2.1.st = r1.1.st := e2
    rw [hr1, hr2] at e1' e2'
    simp only at e1' e2'
    rw [e1', e2']

theorem idle_of_waiting {emu : Bool} {c : Conn σ}
    (h : decodePacket c.buf (checksum c.st) true (!emu) = .ok (none, 0)) :
    processBuffer (handleData emu checksum echo onPacket) c.buf c.st = (c, [], .ok ()) :=
  processBuffer_wait (handleData_none checksum echo onPacket h)

/-- After a reception that does not raise, the buffer holds no complete message. -/
theorem waiting_after {emu : Bool} : ∀ (k : Nat) (b : Bytes) (s : σ) (c : Conn σ) (o : List ω), b.length ≤ k →
    processBuffer (handleData emu checksum echo onPacket) b s = (c, o, .ok ()) →
    decodePacket c.buf (checksum c.st) true (!emu) = .ok (none, 0) := by
  have nil : ∀ cs fp, decodePacket [] cs true fp = .ok (none, 0) := by
    intro cs fp; cases fp <;> rfl
  intro k
  induction k with
  | zero =>
    intro b s c o hk h
    have : b = [] := List.eq_nil_of_length_eq_zero (by omega)
    subst this
    rw [processBuffer_nil] at h
    simp only [Prod.mk.injEq] at h
    rw [← h.1]; exact nil _ _
  | succ k ih =>
    intro b s c o hk h
    by_cases hb : b = []
    · exact ih b s c o (by simp [hb]) h
    · rcases hh : handleData emu checksum echo onPacket b s with ⟨s1, o1, r⟩
      cases r with
      | error e => rw [processBuffer_error hb hh] at h; simp at h
      | ok r =>
        obtain ⟨p, n, h1, h2⟩ := handleData_ok checksum echo onPacket (by rw [hh])
        by_cases hr : 0 < r
        · rw [processBuffer_step hb hh hr] at h
          simp only [Prod.mk.injEq] at h
          refine ih (b.drop r.toNat) s1 c _ ?_ (Prod.ext h.1 (Prod.ext rfl h.2.2))
          have := List.length_pos_iff.mpr hb
          simp only [List.length_drop]; omega
        · have hn : n = 0 := by omega
          subst hn
          have hp : p = none := by
            cases p with
            | none => rfl
            | some q => exact absurd (C34_progress _ _ _ _ _ _ h1) (by omega)
          subst hp
          rw [idle_of_waiting checksum echo onPacket (c := ⟨b, s⟩) h1] at h
          simp only [Prod.mk.injEq] at h
          rw [← h.1]; exact h1

/-- C40: for a client (also for subclasses, whose event handlers are arbitrary)
with no complete message in its buffer, two ways of chopping the same stream
into receptions give the same effects in the same order, the same exception or
none, the same state, and (if there was no exception) the same buffer. -/
theorem C40_client {π : Type} (hook : Event → Proc Client (Eff π) Unit) (c : Conn Client)
    (hidle : ¬ PciComplete c.buf) (chunks1 chunks2 : List Bytes) (heq : chunks1.flatten = chunks2.flatten)
    (hf1 : Fits maxBufferSize (Client.handle hook) chunks1 c)
    (hf2 : Fits maxBufferSize (Client.handle hook) chunks2 c) :
    let r1 := feed maxBufferSize (Client.handle hook) chunks1 c
    let r2 := feed maxBufferSize (Client.handle hook) chunks2 c
    r1.2 = r2.2 ∧ r1.1.st = r2.1.st ∧ (r1.2.2 = .ok () → r1.1 = r2.1) :=
  chop_invariant _ _ _ false maxBufferSize c chunks1 chunks2
    (idle_of_waiting _ _ _ ((C34_pci c.buf true true).1 hidle)) heq hf1 hf2 (by simp)

/-- C40: and a reception that does not raise leaves no complete message in the
buffer, so the hypothesis holds from the start and ever after. -/
theorem C40_idle {π : Type} (hook : Event → Proc Client (Eff π) Unit) (c c' : Conn Client) (d : Bytes)
    (o : List (Eff π)) (h : Client.dataReceived hook d c = (c', o, .ok ())) : ¬ PciComplete c'.buf := by
  unfold Client.dataReceived dataReceived at h
  split at h
  · simp at h
  · split at h
    · simp at h
    · have hw := waiting_after _ _ _ _ _ _ _ _ (Nat.le_refl _) h
      intro hc
      have := (C34_pci c'.buf true true).2 hc _ _ hw
      omega

/-- C41 except for bare CALs. Missing from the full claim: streams in which the
server meets a bare CAL (see `C41_false`). -/
theorem C41_server_partial (rand : Nat → Int) (c : Conn Server) (hidle : ¬ ClientComplete c.buf)
    (chunks1 chunks2 : List Bytes) (heq : chunks1.flatten = chunks2.flatten)
    (hf1 : Fits maxBufferSize (Server.handle rand) chunks1 c)
    (hf2 : Fits maxBufferSize (Server.handle rand) chunks2 c)
    (hcal : ∀ b s, Reach (Server.handle rand) (c.buf ++ chunks1.flatten) c.st b s →
      ∀ x n, decodePacket b s.checksum true false ≠ .ok (some (.cal x), n)) :
    let r1 := feed maxBufferSize (Server.handle rand) chunks1 c
    let r2 := feed maxBufferSize (Server.handle rand) chunks2 c
    r1.2 = r2.2 ∧ r1.1.st = r2.1.st ∧ (r1.2.2 = .ok () → r1.1 = r2.1) :=
  chop_invariant _ _ _ true maxBufferSize c chunks1 chunks2
    (idle_of_waiting _ _ _ ((C34_client c.buf _ true).1 hidle)) heq hf1 hf2 (fun _ => hcal)

theorem C41_idle (rand : Nat → Int) (c c' : Conn Server) (d : Bytes)
    (o : List SEff) (h : Server.dataReceived rand d c = (c', o, .ok ())) : ¬ ClientComplete c'.buf := by
  unfold Server.dataReceived dataReceived at h
  split at h
  · simp at h
  · split at h
    · simp at h
    · have hw := waiting_after _ _ _ _ _ _ _ _ (Nat.le_refl _) h
      intro hc
      have := (C34_client c'.buf _ true).2 hc _ _ hw
      omega

/-- Both pieces of a chopped stream are accepted and the events differ from
those of the whole: the three resets behind a direct RECALL command are lost if
they arrive together with it. -/
theorem C41_false :
    ¬ (∀ (rand : Nat → Int) (c : Conn Server) (chunks1 chunks2 : List Bytes),
      ¬ ClientComplete c.buf → chunks1.flatten = chunks2.flatten →
      Fits maxBufferSize (Server.handle rand) chunks1 c →
      Fits maxBufferSize (Server.handle rand) chunks2 c →
      (feed maxBufferSize (Server.handle rand) chunks1 c).2 =
        (feed maxBufferSize (Server.handle rand) chunks2 c).2) := by
  intro h
  have hn : ¬ ClientComplete ([] : Bytes) := by
    intro hc
    have := (C34_client [] true true).2 hc _ _ rfl
    omega
  have := h (fun _ => 1) ⟨[], { connected := true }⟩ [ascii "@001A2001\r~~~"]
    [ascii "@001A2001\r", ascii "~~~"] hn (by decide +kernel)
    ⟨by decide +kernel, fun _ _ _ => trivial⟩
    ⟨by decide +kernel, fun c' o hr => ⟨by
      have he : (Server.handle (fun _ => 1), c').2 =
          (feed maxBufferSize (Server.handle fun _ => 1) [ascii "@001A2001\r"]
            ⟨[], { connected := true }⟩).1 := by
        simp only [feed, Proc.andThen, hr]
      simp only at he
      rw [he]; decide +kernel, fun _ _ _ => trivial⟩⟩
  revert this
  decide +kernel

example : (feed maxBufferSize (Server.handle (fun _ => 1)) [ascii "@001A2001\r~~~"]
      ⟨[], { connected := true }⟩).2 = ([.echo (ascii "@001A2001\r~~~")], .ok ()) ∧
    (feed maxBufferSize (Server.handle (fun _ => 1)) [ascii "@001A2001\r", ascii "~~~"]
      ⟨[], { connected := true }⟩).2 =
      ([.echo (ascii "@001A2001\r"), .echo (ascii "~"), .event .reset, .echo (ascii "~"), .event .reset,
        .echo (ascii "~"), .event .reset], .ok ()) := by decide +kernel

/-- A client fed a confirmation and two events in three awkward pieces. -/
example : (feed (ω := Eff Unit) maxBufferSize (Client.handle (Client.baseHook fun _ => ⟨⟨2020, 1, 1⟩, ⟨0, 0, 0, 0⟩⟩))
      [ascii "h", ascii ".05053800790144\r", ascii "\n050538000102BB\r\n05"] ⟨[], {}⟩) =
    (⟨ascii "05", {}⟩, [.event (.confirmation [0x68] true), .event (.lightingOn (some 5) 1),
      .event (.lightingOff (some 5) 2)], .ok ()) := by
  decide +kernel

/-! ## C42 -/

/-- A line that cannot be a frame: some character is not a base16 digit, or the
checksum is wrong. -/
def Malformed (l : Bytes) : Prop :=
  (∃ c ∈ l, ¬ IsUpperHex c) ∨ ∃ m, m ≠ [] ∧ l = b16encode m ∧ ¬ SumsToZero m

theorem decodeHex_malformed {l : Bytes} (h : Malformed l) (c : Nat) (fp dm : Bool) (conf : Option UInt8) :
    ∃ x e, decodeHex l c true true fp dm conf = .ok (some (.invalid x e), c) := by
  rcases h with ⟨x, hx, hn⟩ | ⟨m, -, rfl, hs⟩
  · refine ⟨l, .valueError, ?_⟩
    unfold decodeHex
    rw [if_neg]
    intro ha
    exact hn ((all_isHex_iff l).1 ha x hx)
  · exact ⟨m, .valueError, by rw [decodeHex_encode, decodeRaw_bad hs]⟩

theorem handleData_invalid {emu : Bool} {b : Bytes} {s : σ} {x e n} (hn : 0 < n)
    (h : decodePacket b (checksum s) true (!emu) = .ok (some (.invalid x e), n)) :
    handleData emu checksum echo onPacket b s =
      Proc.andThen (if emu = true then echo (b.take n) else pure ())
        (fun _ => Proc.andThen (onPacket (.invalid x e)) fun _ => pure (n : Int)) s := by
  simp [handleData, h, hn]

/-- C42 for a client: a malformed line from the PCI is skipped, whatever follows
it, and has no effect at all. Missing from the full claim: base16 lines of odd
length and the line `00` (see `C42_false`). -/
theorem C42_client_partial {π : Type} (hook : Event → Proc Client (Eff π) Unit) (l rest : Bytes) (s : Client)
    (hl : Malformed l) (hcr : (0x0d : UInt8) ∉ l)
    (hh : ∀ c, l.head? = some c → c ≠ 0x2b ∧ c ≠ 0x21 ∧ c ∉ confirmationCodes) :
    processBuffer (Client.handle hook) (l ++ 0x0d :: 0x0a :: rest) s =
      processBuffer (Client.handle hook) rest s := by
  have hne : l ≠ [] := by
    rintro rfl
    rcases hl with ⟨c, hc, -⟩ | ⟨m, hm, he, -⟩
    · simp at hc
    · have := congrArg List.length he
      rw [b16encode_length] at this
      simp only [List.length_nil] at this
      exact hm (List.eq_nil_of_length_eq_zero (by omega))
  obtain ⟨x, e, hx⟩ := decodeHex_malformed hl (l.length + 2) true false none
  have hd : decodePacket (l ++ 0x0d :: 0x0a :: rest) true true true =
      .ok (some (.invalid x e), l.length + 2) := by
    simp only [decodePacket, if_true, framePci_line l rest hcr hh]
    cases l with
    | nil => exact absurd rfl hne
    | cons a as => simpa [decodeLine] using hx
  have hs : Client.handle hook (l ++ 0x0d :: 0x0a :: rest) s = (s, [], .ok ((l.length + 2 : Nat) : Int)) := by
    unfold Client.handle
    rw [handleData_invalid _ _ _ (by omega) hd]
    simp [Proc.andThen, Client.onPacket, pure]
  rw [processBuffer_step (by simp) hs (by omega)]
  have : (l ++ 0x0d :: 0x0a :: rest).drop (((l.length + 2 : Nat) : Int).toNat) = rest := by
    rw [Int.toNat_natCast, List.drop_append, List.drop_eq_nil_of_le (by omega)]
    rw [Nat.add_sub_cancel_left]; rfl
  rw [this]
  simp

/-- C42 for the simulated PCI with checksums on: a malformed command is skipped,
after being echoed if in basic mode. -/
theorem C42_server_partial (rand : Nat → Int) (l rest : Bytes) (conf : Option UInt8) (s : Server)
    (hc : ∀ c, conf = some c → c ∈ confirmationCodes)
    (hl : Malformed l) (hcr : (0x0d : UInt8) ∉ l) (hq : (0x3f : UInt8) ∉ l)
    (hend : conf = none → ∀ c, l.getLast? = some c → IsUpperHex c)
    (hcs : s.checksum = true) (hcon : s.connected = true) :
    let line := 0x5c :: l ++ conf.toList ++ [0x0d]
    processBuffer (Server.handle rand) (line ++ rest) s =
      ((processBuffer (Server.handle rand) rest s).1,
       (if s.basic then [.echo line] else []) ++ (processBuffer (Server.handle rand) rest s).2.1,
       (processBuffer (Server.handle rand) rest s).2.2) := by
  intro line
  have hne : l ≠ [] := by
    rintro rfl
    rcases hl with ⟨c, hc, -⟩ | ⟨m, hm, he, -⟩
    · simp at hc
    · have := congrArg List.length he
      rw [b16encode_length] at this
      simp only [List.length_nil] at this
      exact hm (List.eq_nil_of_length_eq_zero (by omega))
  have hlen : line.length = (0x5c :: l ++ conf.toList).length + 1 := by simp [line]; omega
  obtain ⟨x, e, hx⟩ := decodeHex_malformed hl line.length false false conf
  have hdc : decodeConf (l ++ conf.toList) line.length true true false = .ok (some (.invalid x e), line.length) := by
    unfold decodeConf
    cases conf with
    | some c =>
      have hm := hc c rfl
      obtain ⟨h1, -⟩ := conf_not_special c hm
      simp only [Option.toList_some, List.getLast?_concat]
      rw [if_neg (by simp [h1]), if_neg (by simp [hm])]
      simpa using hx
    | none =>
      simp only [Option.toList_none, List.append_nil]
      rw [List.getLast?_eq_some_getLast hne]
      simp only
      rw [if_pos ((isHex_iff _).2 (hend rfl _ (List.getLast?_eq_some_getLast hne)))]
      exact hx
  have hd : decodePacket (line ++ rest) s.checksum true false = .ok (some (.invalid x e), line.length) := by
    have hf := frameClient_line (0x5c :: l ++ conf.toList) rest (by
        simp only [List.cons_append, List.mem_cons, List.mem_append, not_or]
        refine ⟨by decide, hcr, ?_⟩
        intro hm
        cases conf with
        | none => simp at hm
        | some c =>
          simp only [Option.toList_some, List.mem_singleton] at hm
          exact (conf_not_special c (hc c rfl)).2.1 hm.symm) (by
        simp only [List.cons_append, List.mem_cons, List.mem_append, not_or]
        refine ⟨by decide, hq, ?_⟩
        intro hm
        cases conf with
        | none => simp at hm
        | some c =>
          simp only [Option.toList_some, List.mem_singleton] at hm
          exact (conf_not_special c (hc c rfl)).2.2.1 hm.symm) (by simp) (by simp) (by simp)
    have hsplit : line ++ rest = 0x5c :: l ++ conf.toList ++ 0x0d :: rest := by simp [line]
    rw [hsplit]
    simp only [decodePacket, Bool.false_eq_true, if_false, hf, hcs]
    rw [← hlen]
    simp only [List.cons_append, decodeLine, Bool.false_eq_true, if_false]
    rw [if_neg (by decide), if_pos trivial]
    exact hdc
  have htake : (line ++ rest).take line.length = line := by simp
  have hs : Server.handle rand (line ++ rest) s =
      (s, if s.basic then [.echo line] else [], .ok ((line.length : Nat) : Int)) := by
    unfold Server.handle
    rw [handleData_invalid _ _ _ (by omega) hd, htake]
    cases hb : s.basic <;> simp [Proc.andThen, Server.onPacket, pure, Server.echo, hb, hcon]
  rw [processBuffer_step (by simp [line]) hs (by omega)]
  simp

/-- C42 is false. On a buffer that starts with an unreadable line (`C36`: an odd
number of digits, for example), every reception raises, has no effect, and keeps
the line, whatever arrives behind it, until the buffer overflows and everything
in it is dropped. -/
theorem C42_blocked {π : Type} (hook : Event → Proc Client (Eff π) Unit) (c : Conn Client) (e : PyErr)
    (h : decodePacket c.buf true true true = .error e) (d : Bytes) :
    Client.dataReceived hook d c =
      if maxBufferSize < d.length then (c, [], .error .valueError)
      else if maxBufferSize < c.buf.length + d.length then (⟨[], c.st⟩, [], .error .valueError)
      else (⟨c.buf ++ d, c.st⟩, [], .error e) := by
  unfold Client.dataReceived dataReceived
  split
  · rfl
  · split
    · rfl
    · have hd : decodePacket (c.buf ++ d) true true true = .error e := by
        rw [C35_prefix_stable _ _ _ _ _ (by rw [h]; simp), h]
      have hne : c.buf ++ d ≠ [] := by
        intro h0
        rw [h0] at hd
        cases hd
      refine processBuffer_error hne ?_
      simp [Client.handle, handleData, hd]

theorem C42_blocked_server (rand : Nat → Int) (c : Conn Server) (e : PyErr)
    (h : decodePacket c.buf c.st.checksum true false = .error e) (d : Bytes) :
    Server.dataReceived rand d c =
      if maxBufferSize < d.length then (c, [], .error .valueError)
      else if maxBufferSize < c.buf.length + d.length then (⟨[], c.st⟩, [], .error .valueError)
      else (⟨c.buf ++ d, c.st⟩, [], .error e) := by
  unfold Server.dataReceived dataReceived
  split
  · rfl
  · split
    · rfl
    · have hd : decodePacket (c.buf ++ d) c.st.checksum true false = .error e := by
        rw [C35_prefix_stable _ _ _ _ _ (by rw [h]; simp), h]
      have hne : c.buf ++ d ≠ [] := by
        intro h0
        rw [h0] at hd
        cases hd
      refine processBuffer_error hne ?_
      simp [Server.handle, handleData, hd]

/-- C42 is false: the event behind a line of three digits is not delivered,
neither together with it nor later. -/
theorem C42_false (hook : Event → Proc Client (Eff Unit) Unit) :
    Client.dataReceived hook (ascii "050\r\n05053800790144\r\n") ⟨[], {}⟩ =
      (⟨ascii "050\r\n05053800790144\r\n", {}⟩, [], .error .binasciiError) ∧
    Client.dataReceived hook (ascii "05053800790144\r\n") ⟨ascii "050\r\n", {}⟩ =
      (⟨ascii "050\r\n05053800790144\r\n", {}⟩, [], .error .binasciiError) ∧
    (Client.dataReceived hook (ascii "05053800790144\r\n") ⟨[], {}⟩) =
      Client.dataReceived hook (ascii "GARBAGE\r\n05053800790144\r\n") ⟨[], {}⟩ := by
  refine ⟨?_, ?_, ?_⟩
  · unfold Client.dataReceived dataReceived
    rw [if_neg (by decide +kernel), if_neg (by decide +kernel)]
    refine processBuffer_error (by decide +kernel) ?_
    have : decodePacket (ascii "050\r\n05053800790144\r\n") true true true = .error .binasciiError := by
      decide +kernel
    simp only [List.nil_append]
    simp [Client.handle, handleData, this]
  · rw [C42_blocked hook _ .binasciiError (by decide +kernel)]
    rw [if_neg (by decide +kernel), if_neg (by decide +kernel)]
    have : ascii "050\r\n" ++ ascii "05053800790144\r\n" = ascii "050\r\n05053800790144\r\n" := by
      decide +kernel
    simp only [this]
  · have := C42_client_partial hook (ascii "GARBAGE") (ascii "05053800790144\r\n") {}
      (Or.inl ⟨0x47, by decide +kernel, by decide +kernel⟩) (by decide +kernel) (by
        intro c hc
        have : c = 0x47 := by
          have h : (ascii "GARBAGE").head? = some 0x47 := by decide +kernel
          rw [h] at hc; injection hc with hc; exact hc.symm
        subst this; decide +kernel)
    unfold Client.dataReceived dataReceived
    rw [if_neg (by decide +kernel), if_neg (by decide +kernel), if_neg (by decide +kernel),
      if_neg (by decide +kernel)]
    simp only [List.nil_append]
    rw [← this]
    have e : ascii "GARBAGE\r\n05053800790144\r\n" =
        ascii "GARBAGE" ++ 0x0d :: 0x0a :: ascii "05053800790144\r\n" := by decide +kernel
    rw [e]

end CBus.Props
