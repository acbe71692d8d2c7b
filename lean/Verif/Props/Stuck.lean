import Verif.Props.Server
import Verif.Props.EndToEnd

/-! # A command that stops the simulated PCI

C74 says that every complete command line is taken out of the buffer of the
simulated PCI. In smart mode a request for the presence of units raises
`NotImplementedError` (pciserverprotocol.py:337), and the exception leaves
`data_received` before the line is removed (buffered_protocol.py:88-110). -/

namespace CBus.Props
open CBus CBus.Spec

/-- A packet that contains a request for the presence of units, after commands the
simulated PCI understands only. -/
def Blocks (sals : List SAL) : Prop :=
  ∃ pre ga post, sals = pre ++ .statusRequest false ga 0xff :: post ∧ ∀ x ∈ pre, Understood false x = true

/-- What no command SAL changes. -/
def SameMode (s s' : Server) : Prop :=
  s'.connected = s.connected ∧ s'.basic = s.basic ∧ s'.checksum = s.checksum

theorem SameMode.refl (s : Server) : SameMode s s := ⟨rfl, rfl, rfl⟩

theorem SameMode.trans {s1 s2 s3 : Server} (h1 : SameMode s1 s2) (h2 : SameMode s2 s3) : SameMode s1 s3 :=
  ⟨h2.1.trans h1.1, h2.2.1.trans h1.2.1, h2.2.2.trans h1.2.2⟩

/-- One SAL in smart mode: understood, a request for the presence of units, or
something that is ignored. -/
theorem onSal_smart (rand : Nat → Int) (hr : Server.RandOk rand) (x : SAL) (s : Server) (hb : s.basic = false) :
    ∃ s' o, SameMode s s' ∧ confirmationsOf o = [] ∧
      ((Understood false x = true ∧ Server.onSal rand x s = (s', o, .ok true)) ∨
       (Understood false x = false ∧ (∃ ga, x = .statusRequest false ga 0xff) ∧
          Server.onSal rand x s = (s', o, .error .notImplemented)) ∨
       (Understood false x = false ∧ (∀ ga, x ≠ .statusRequest false ga 0xff) ∧
          Server.onSal rand x s = (s', o, .ok false))) := by
  cases x with
  | statusRequest level ga child =>
    by_cases h : child = appStatusRequest ∧ level = false
    · have he : Server.onSal rand (.statusRequest level ga child) s =
          Proc.andThen (Server.onMasterStatus ga) (fun _ => pure true) s := by
        simp only [Server.onSal]; rw [if_pos h]
      obtain ⟨rfl, rfl⟩ := h
      refine ⟨s, [.event (.masterStatus ga)], .refl s, rfl, .inr (.inl ⟨rfl, ⟨ga, rfl⟩, ?_⟩)⟩
      rw [he]
      simp [Proc.andThen, Server.onMasterStatus, Proc.emit, hb]
    · have he : Server.onSal rand (.statusRequest level ga child) s = (s, [], .ok false) := by
        simp only [Server.onSal]; rw [if_neg h]; rfl
      refine ⟨s, [], .refl s, rfl, .inr (.inr ⟨?_, ?_, he⟩)⟩
      · cases level <;> simp [Understood]
      · intro g hg
        simp only [SAL.statusRequest.injEq] at hg
        exact h ⟨hg.2.2, hg.1⟩
  | clockUpdate v =>
    obtain ⟨w1, w2, h⟩ := Server.onClockUpdate_eq rand hr v s
    have he : Server.onSal rand (.clockUpdate v) s = Proc.andThen (Server.onClockUpdate rand v) (fun _ => pure true) s := rfl
    rw [he, andThen_ok h]
    refine ⟨_, _, ?_, ?_, .inl ⟨rfl, rfl⟩⟩
    · exact ⟨rfl, rfl, rfl⟩
    · rfl
  | temperature _ _ => exact ⟨s, [], .refl s, rfl, .inr (.inr ⟨rfl, by simp, rfl⟩)⟩
  | enableSet _ _ => exact ⟨s, [], .refl s, rfl, .inr (.inr ⟨rfl, by simp, rfl⟩)⟩
  | _ => exact ⟨s, _, .refl s, rfl, .inl ⟨rfl, rfl⟩⟩

theorem onSals_smart (rand : Nat → Int) (hr : Server.RandOk rand) (l : List SAL) : ∀ (s : Server), s.basic = false →
    ∃ s' o, SameMode s s' ∧ confirmationsOf o = [] ∧
      ((Blocks l ∧ Server.onSals rand l s = (s', o, .error .notImplemented)) ∨
       (¬ Blocks l ∧ ∃ b, Server.onSals rand l s = (s', o, .ok b))) := by
  induction l with
  | nil =>
    intro s _
    refine ⟨s, [], .refl s, rfl, .inr ⟨?_, true, rfl⟩⟩
    rintro ⟨pre, ga, post, h, -⟩
    simp at h
  | cons x l ih =>
    intro s hb
    have he : Server.onSals rand (x :: l) s = Proc.andThen (Server.onSal rand x)
        (fun go => if go then Server.onSals rand l else pure false) s := rfl
    obtain ⟨s1, o1, h1, h2, h3⟩ := onSal_smart rand hr x s hb
    rw [he]
    rcases h3 with ⟨hu, h3⟩ | ⟨hu, ⟨ga, hx⟩, h3⟩ | ⟨hu, hx, h3⟩
    · rw [andThen_ok h3]
      obtain ⟨s2, o2, g1, g2, g3⟩ := ih s1 (h1.2.1.trans hb)
      have hbl : Blocks (x :: l) ↔ Blocks l := by
        constructor
        · rintro ⟨pre, ga, post, h, hp⟩
          cases pre with
          | nil =>
            simp only [List.nil_append, List.cons.injEq] at h
            rw [h.1] at hu; simp [Understood] at hu
          | cons y pre =>
            simp only [List.cons_append, List.cons.injEq] at h
            exact ⟨pre, ga, post, h.2, fun z hz => hp z (by simp [hz])⟩
        · rintro ⟨pre, ga, post, h, hp⟩
          refine ⟨x :: pre, ga, post, by rw [h]; rfl, ?_⟩
          intro z hz
          rcases List.mem_cons.1 hz with rfl | hz
          · exact hu
          · exact hp z hz
      refine ⟨s2, o1 ++ o2, h1.trans g1, by rw [confirmationsOf_append, h2, g2]; rfl, ?_⟩
      rw [hbl]
      rcases g3 with ⟨g3, g4⟩ | ⟨g3, b, g4⟩
      · exact .inl ⟨g3, by simp [g4]⟩
      · exact .inr ⟨g3, b, by simp [g4]⟩
    · rw [andThen_error h3]
      exact ⟨s1, o1, h1, h2, .inl ⟨⟨[], ga, l, by rw [hx]; rfl, by simp⟩, rfl⟩⟩
    · rw [andThen_ok h3]
      refine ⟨s1, o1 ++ [], h1, by simp [h2], .inr ⟨?_, false, rfl⟩⟩
      rintro ⟨pre, ga, post, h, hp⟩
      cases pre with
      | nil =>
        simp only [List.nil_append, List.cons.injEq] at h
        exact hx ga h.1
      | cons y pre =>
        simp only [List.cons_append, List.cons.injEq] at h
        have := hp y (by simp)
        rw [← h.1, hu] at this
        cases this

/-- What the simulated PCI does with a decoded buffer. -/
theorem handle_decoded (rand : Nat → Int) (b : Bytes) (s : Server) (hc : s.connected = true)
    (p : Option Packet) (n : Nat) (hd : decodePacket b s.checksum true false = .ok (p, n)) :
    ∃ o, confirmationsOf o = [] ∧ Server.handle rand b s =
      ((Proc.andThen (actOn rand p) (fun _ => pure (n : Int)) s).1,
        o ++ (Proc.andThen (actOn rand p) (fun _ => pure (n : Int)) s).2.1,
        (Proc.andThen (actOn rand p) (fun _ => pure (n : Int)) s).2.2) := by
  have he : Server.handle rand b s =
      Proc.andThen (if True ∧ 0 < n then Server.echo (b.take n) else pure ()) (fun _ =>
        Proc.andThen (actOn rand p) (fun _ => pure (n : Int))) s := by
    simp only [Server.handle, handleData, Bool.not_true, hd]; cases p <;> simp <;> rfl
  have h1 : ∃ o, confirmationsOf o = [] ∧
      (if True ∧ 0 < n then Server.echo (b.take n) else pure () : Proc Server SEff Unit) s = (s, o, .ok ()) := by
    by_cases hn : 0 < n
    · refine ⟨if s.basic then [SEff.echo (b.take n)] else [], ?_, ?_⟩
      · split <;> rfl
      · simp only [hn, and_self, if_true]
        unfold Server.echo; split <;> simp
    · simp only [hn, and_false, if_false]; exact ⟨[], rfl, rfl⟩
  obtain ⟨o, h0, h1⟩ := h1
  exact ⟨o, h0, by rw [he, andThen_ok h1]⟩

/-- C74, the part that holds: a buffer that is understood (as a packet or as
nothing) is consumed as far as it was understood, unless the simulated PCI is in
smart mode and the packet has a request for the presence of units in it; then the
exception is `NotImplementedError`. -/
theorem C74_consumed_partial (rand : Nat → Int) (hr : Server.RandOk rand) (b : Bytes) (s : Server)
    (hc : s.connected = true) (p : Option Packet) (n : Nat)
    (hd : decodePacket b s.checksum true false = .ok (p, n)) :
    ((s.basic = false ∧ ∃ q, p = some (.pm q) ∧ Blocks q.sals) →
      (Server.handle rand b s).2.2 = .error .notImplemented) ∧
    (¬ (s.basic = false ∧ ∃ q, p = some (.pm q) ∧ Blocks q.sals) → (Server.handle rand b s).2.2 = .ok (n : Int)) := by
  obtain ⟨o, -, ho⟩ := handle_decoded rand b s hc p n hd
  constructor
  · rintro ⟨hb, q, rfl, hq⟩
    obtain ⟨s1, o1, -, -, h⟩ := onSals_smart rand hr q.sals s hb
    rcases h with ⟨-, h⟩ | ⟨h, -⟩
    · rw [ho]
      have he : Server.onPacket rand (.pm q) s = (s1, o1, .error .notImplemented) := andThen_error h
      exact congrArg (fun r => r.2.2) (andThen_error (f := fun _ => (pure (n : Int) : Proc Server SEff Int)) he)
    · exact absurd hq h
  · intro hbl
    have key : (actOn rand p s).2.2 = .ok () := by
      cases p with
      | none => rfl
      | some p =>
        have hcode : ∀ c, codeOf p = some c → c ∈ confirmationCodes := fun c => decoded_code hd c
        by_cases hb : s.basic = true
        · exact basic_no_raise rand hr p hcode s hc hb
        · have hb' : s.basic = false := by simpa using hb
          have conf : ∀ (conf : Option UInt8), (∀ c, conf = some c → c ∈ confirmationCodes) → ∀ s : Server,
              s.connected = true → (Server.confirm conf s).2.2 = .ok () := by
            intro conf hcc s hc
            cases conf with
            | none => rfl
            | some c =>
              show (Server.sendConfirmation [c] true s).2.2 = _
              rw [Server.sendConfirmation_eq (hcc c rfl) true s hc]
          cases p with
          | pm q =>
            obtain ⟨s1, o1, h1, -, h⟩ := onSals_smart rand hr q.sals s hb'
            rcases h with ⟨h, -⟩ | ⟨-, b, h⟩
            · exact absurd ⟨hb', q, rfl, h⟩ hbl
            · have he : Server.onPacket rand (.pm q) s = Proc.andThen (Server.onSals rand q.sals)
                  (fun go => if go then Server.confirm q.conf else pure ()) s := rfl
              show (Server.onPacket rand (.pm q) s).2.2 = _
              rw [he, andThen_ok h]
              cases b with
              | false => rfl
              | true => exact conf q.conf hcode s1 (h1.1.trans hc)
          | dm q =>
            have he : Server.onPacket rand (.dm q) s = Proc.andThen (Server.onDM q)
                (fun go => if go then Server.confirm q.conf else pure ()) s := rfl
            have hd : ∃ s' b, Server.onDM q s = (s', [], .ok b) ∧ s'.connected = true := by
              unfold Server.onDM
              repeat' split
              all_goals exact ⟨_, _, rfl, hc⟩
            obtain ⟨s1, b1, h1, h2⟩ := hd
            show (Server.onPacket rand (.dm q) s).2.2 = _
            rw [he, andThen_ok h1]
            cases b1 with
            | false => rfl
            | true => exact conf q.conf hcode s1 h2
          | _ => rfl
    rw [ho]
    obtain ⟨s1, o1, r1, h⟩ : ∃ s1 o1 r1, actOn rand p s = (s1, o1, r1) := ⟨_, _, _, rfl⟩
    rw [h] at key
    simp only at key
    subst key
    simp only [andThen_ok h]
    rfl

/-- A command line: decoded to a packet, as far as its end, whatever follows. -/
def CommandLine (checksum : Bool) (l : Bytes) (p : Packet) : Prop :=
  l ≠ [] ∧ ∀ rest, decodePacket (l ++ rest) checksum true false = .ok (some p, l.length)

/-- The full statement of C74: a command line that a connected simulated PCI with
nothing in its buffer receives is not in its buffer afterwards. -/
def C74_claim : Prop :=
  ∀ (rand : Nat → Int) (_ : Server.RandOk rand) (l : Bytes) (p : Packet) (s : Server) (_ : s.connected = true)
    (_ : CommandLine s.checksum l p) (_ : l.length ≤ 256),
    (Server.dataReceived rand l ⟨[], s⟩).1.buf = []

/-- A simulated PCI in smart mode whose buffer starts with a command line with a
request for the presence of units in it. -/
def Stuck (l : Bytes) (c : Conn Server) : Prop :=
  c.st.connected = true ∧ c.st.basic = false ∧ (∃ x, c.buf = l ++ x) ∧
    ∃ q, CommandLine c.st.checksum l (.pm q) ∧ Blocks q.sals

/-- Receptions one after another, by a transport that goes on after an exception.
(A transport that gives up at the first exception, like a socket of asyncio, closes
the connection at the request instead.) -/
def receptions (rand : Nat → Int) : List Bytes → Conn Server → Conn Server × List SEff
  | [], c => (c, [])
  | d :: ds, c =>
    ((receptions rand ds (Server.dataReceived rand d c).1).1,
      (Server.dataReceived rand d c).2.1 ++ (receptions rand ds (Server.dataReceived rand d c).1).2)

theorem stuck_receive (rand : Nat → Int) (hr : Server.RandOk rand) (l d : Bytes) (c : Conn Server) (h : Stuck l c)
    (hl : (c.buf ++ d).length ≤ 256) :
    ∃ s' o, Server.dataReceived rand d c = (⟨c.buf ++ d, s'⟩, o, .error .notImplemented) ∧
      Stuck l ⟨c.buf ++ d, s'⟩ ∧ confirmationsOf o = [] := by
  obtain ⟨hc, hb, ⟨x, hx⟩, q, ⟨hne, hd⟩, hbl⟩ := h
  rw [List.length_append] at hl
  have hd' : decodePacket (c.buf ++ d) c.st.checksum true false = .ok (some (.pm q), l.length) := by
    rw [hx, List.append_assoc]; exact hd _
  obtain ⟨o, h0, ho⟩ := handle_decoded rand (c.buf ++ d) c.st hc _ _ hd'
  obtain ⟨s1, o1, hm, hcf, h⟩ := onSals_smart rand hr q.sals c.st hb
  rcases h with ⟨-, h⟩ | ⟨h, -⟩
  · have he : actOn rand (some (.pm q)) c.st = (s1, o1, .error .notImplemented) := andThen_error h
    rw [andThen_error he] at ho
    refine ⟨s1, o ++ o1, ?_, ?_, ?_⟩
    · have hnil : c.buf ++ d ≠ [] := by rw [hx]; simp [hne]
      unfold Server.dataReceived dataReceived maxBufferSize
      rw [if_neg (by omega), if_neg (by omega), processBuffer_error hnil ho]
    · exact ⟨hm.1.trans hc, hm.2.1.trans hb, ⟨x ++ d, by rw [hx, List.append_assoc]⟩, q,
        ⟨hne, by rw [hm.2.2]; exact hd⟩, hbl⟩
    · rw [confirmationsOf_append, h0, hcf]; rfl
  · exact absurd hbl h

/-- C74: what goes wrong. From a request for the presence of units in smart mode on,
the simulated PCI only collects what it receives: for every sequence of receptions,
until the buffer overflows, nothing is taken out of the buffer, nothing is confirmed,
and every reception raises `NotImplementedError` (so the next one does too). -/
theorem C74_stuck (rand : Nat → Int) (hr : Server.RandOk rand) (l : Bytes) (ds : List Bytes) : ∀ (c : Conn Server),
    Stuck l c → (c.buf ++ ds.flatten).length ≤ 256 →
    (receptions rand ds c).1.buf = c.buf ++ ds.flatten ∧ confirmationsOf (receptions rand ds c).2 = [] ∧
    Stuck l (receptions rand ds c).1 ∧
    ∀ d, (c.buf ++ ds.flatten ++ d).length ≤ 256 →
      (Server.dataReceived rand d (receptions rand ds c).1).2.2 = .error .notImplemented := by
  induction ds with
  | nil =>
    intro c h hl
    refine ⟨by simp [receptions], rfl, h, ?_⟩
    intro d hd
    obtain ⟨s', o, h1, -, -⟩ := stuck_receive rand hr l d c h (by simpa using hd)
    show (Server.dataReceived rand d c).2.2 = _
    rw [h1]
  | cons x ds ih =>
    intro c h hl
    simp only [List.flatten_cons, List.length_append] at hl
    obtain ⟨s', o, h1, h2, h3⟩ := stuck_receive rand hr l x c h (by rw [List.length_append]; omega)
    obtain ⟨g1, g2, g3, g4⟩ := ih ⟨c.buf ++ x, s'⟩ h2 (by simp only [List.length_append]; omega)
    simp only [receptions, h1]
    refine ⟨by rw [g1]; simp, by rw [confirmationsOf_append, h3, g2]; rfl, g3, ?_⟩
    intro d hd
    exact g4 d (by simpa using hd)

/-- The request for the presence of units with checksum and confirmation code `g`. -/
def presenceLine : Bytes := ascii "\\05FF007AFF0083g\r"

/-- What it is decoded to. -/
def presencePacket : PM := { sals := [.statusRequest false 0 0xff], app := some 0xff, conf := some 0x67 }

theorem presenceLine_command : CommandLine true presenceLine (.pm presencePacket) := by
  refine ⟨by decide, ?_⟩
  intro rest
  have h := decodePacket_client .backslash [0x05, 0xff, 0x00, 0x7a, 0xff, 0x00] rest (by decide) (some 0x67)
    (by decide) true true
  have e1 : CmdPrefix.backslash.text ++ b16encode (withSum true [0x05, 0xff, 0x00, 0x7a, 0xff, 0x00]) ++
      (some 0x67 : Option UInt8).toList ++ 0x0d :: rest = presenceLine ++ rest := by
    have : CmdPrefix.backslash.text ++ b16encode (withSum true [0x05, 0xff, 0x00, 0x7a, 0xff, 0x00]) ++
      (some 0x67 : Option UInt8).toList ++ [0x0d] = presenceLine := by decide +kernel
    rw [← this]; simp
  rw [e1] at h
  rw [h]
  decide +kernel

/-- C74 is false of the code. -/
theorem C74_false : ¬ C74_claim := by
  intro h
  have := h (fun _ => 1) (fun _ => ⟨by simp, by simp⟩) presenceLine (.pm presencePacket) { connected := true, basic := false, checksum := true }
    rfl presenceLine_command (by decide)
  revert this
  decide +kernel

/-- Not vacuous: a lamp is switched on after the request, over two receptions. The
simulated PCI does nothing any more. -/
example : Stuck presenceLine ⟨presenceLine, { connected := true, basic := false, checksum := true }⟩ :=
  ⟨rfl, rfl, ⟨[], rfl⟩, presencePacket, presenceLine_command, [], 0, [], rfl, by simp⟩

example :
    receptions (fun _ => 1) [presenceLine, ascii "\\0538", ascii "00790149h\r"]
        ⟨[], { connected := true, basic := false, checksum := true }⟩ =
      (⟨presenceLine ++ ascii "\\053800790149h\r", { connected := true, basic := false, checksum := true }⟩,
        [.event (.masterStatus 0), .event (.masterStatus 0), .event (.masterStatus 0)]) := by
  decide +kernel

/-- In basic mode the same commands are handled: the answer in three blocks and
both confirmations. -/
example :
    (receptions (fun _ => 1) [presenceLine, ascii "\\0538", ascii "00790149h\r"]
        ⟨[], { connected := true, checksum := true }⟩).1.buf = [] ∧
    confirmationsOf (receptions (fun _ => 1) [presenceLine, ascii "\\0538", ascii "00790149h\r"]
        ⟨[], { connected := true, checksum := true }⟩).2 = [ascii "g.", ascii "h."] := by
  decide +kernel

end CBus.Props
