import Verif.Props.Session
import Verif.Props.Writing
import Verif.Spec.ServerSession

/-! # C103: all that the simulated PCI does with all that it receives -/

namespace CBus.Props
open CBus CBus.Spec

/-! ## Lines -/

theorem reportLine_eq {cs : Bool} {src : Int} {cmd : UInt8} {ga : Int} {line : Bytes} (h : ReportLine cs src cmd ga line) :
    line = b16encode (if cs then addChecksum [0x05, byteOf src, 0x38, 0x00, cmd, byteOf ga]
      else [0x05, byteOf src, 0x38, 0x00, cmd, byteOf ga]) ++ [0x0d, 0x0a] := by
  obtain ⟨digits, h1, rfl⟩ := h
  rw [(spelled_iff _ _ _).1 h1]

theorem reportLine_ok (cs : Bool) (src : Int) (cmd : UInt8) (ga : Int) : ∃ line, ReportLine cs src cmd ga line :=
  ⟨_, _, (spelled_iff _ _ _).2 rfl, rfl⟩

theorem presenceLine_ok (start n : Nat) : ∃ line, PresenceLine start n line := ⟨_, _, (spelled_iff _ _ _).2 rfl, rfl⟩

theorem presenceLine_eq {start n : Nat} {line : Bytes} (h : PresenceLine start n line) :
    line = b16encode (addChecksum ([UInt8.ofNat (0xc0 + (n + 3)), 0xff, UInt8.ofNat start] ++
      (List.range' (start / 4) n).map presenceByte)) ++ [0x0d, 0x0a] := by
  obtain ⟨digits, h1, rfl⟩ := h
  rw [(spelled_iff _ _ _).1 h1]
  rfl

theorem block_presence : b16encode (addChecksum ([UInt8.ofNat (0xc0 + (22 + 3)), 0xff, UInt8.ofNat 0] ++
      (List.range' (0 / 4) 22).map presenceByte)) ++ [0x0d, 0x0a] = Server.block 0 ∧
    b16encode (addChecksum ([UInt8.ofNat (0xc0 + (22 + 3)), 0xff, UInt8.ofNat 88] ++
      (List.range' (88 / 4) 22).map presenceByte)) ++ [0x0d, 0x0a] = Server.block 88 ∧
    b16encode (addChecksum ([UInt8.ofNat (0xc0 + (20 + 3)), 0xff, UInt8.ofNat 176] ++
      (List.range' (176 / 4) 20).map presenceByte)) ++ [0x0d, 0x0a] = Server.block 176 := by decide +kernel

theorem lighting_line (cs : Bool) (sal : SAL) (cmd : UInt8) (g src : Int)
    (henc : sal.encode = .ok [cmd, byteOf g]) (ha : sal.application = appLighting) :
    Server.serialize (.pm { checksum := cs, app := some sal.application, sals := [sal], src := some src }) =
      .ok (b16encode (if cs then addChecksum [0x05, byteOf src, 0x38, 0x00, cmd, byteOf g]
        else [0x05, byteOf src, 0x38, 0x00, cmd, byteOf g]) ++ [0x0d, 0x0a]) := by
  apply Server.serialize_pm
  have he : encodeSals [sal] = .ok [cmd, byteOf g] := by
    simp [encodeSals, henc, bind, Except.bind, pure, Except.pure]
  simp only [Packet.encodePacket, PM.encode, he, ha, bind, Except.bind, pure, Except.pure]
  cases cs <;> rfl

theorem queue_line (rand : Nat → Int) (mk : Int → Py SAL) (sal : Int → SAL) (cmd : UInt8) (s : Server)
    (hmk : mk (rand s.rngPos) = .ok (sal (rand s.rngPos)))
    (henc : (sal (rand s.rngPos)).encode = .ok [cmd, byteOf (rand s.rngPos)])
    (ha : (sal (rand s.rngPos)).application = appLighting) {line : Bytes}
    (h : ReportLine s.checksum (rand (s.rngPos + 1)) cmd (rand s.rngPos) line) :
    Server.queueRandom rand mk s = ({ s with rngPos := s.rngPos + 2, queue := s.queue ++ [line] }, [.queued line], .ok ()) := by
  simp only [Server.queueRandom, hmk, Server.eventPacket_ok, Server.sendLater, lighting_line _ _ cmd _ _ henc ha]
  rw [← reportLine_eq h]

theorem vals_inj : ∀ {a b : Bytes}, a.map UInt8.toNat = b.map UInt8.toNat → a = b
  | [], [], _ => rfl
  | [], _ :: _, h => by simp at h
  | _ :: _, [], h => by simp at h
  | x :: a, y :: b, h => by
    simp only [List.map_cons, List.cons.injEq] at h
    rw [UInt8.toNat_inj.1 h.1, vals_inj h.2]

theorem lightOn_encode {g : Int} (h : IsByte g) : (SAL.lightOn g).encode = .ok [0x79, byteOf g] := by
  obtain ⟨b, h1, h2⟩ := vals_ok (sal_sound (.on g h))
  rw [h1]
  refine congrArg _ (vals_inj ?_)
  rw [h2]
  simp only [List.map_cons, List.map_nil, byteOf, UInt8.toNat_ofNat']
  have := h.1
  have := h.2
  congr 3
  omega

theorem lightOff_encode {g : Int} (h : IsByte g) : (SAL.lightOff g).encode = .ok [0x01, byteOf g] := by
  obtain ⟨b, h1, h2⟩ := vals_ok (sal_sound (.off g h))
  rw [h1]
  refine congrArg _ (vals_inj ?_)
  rw [h2]
  simp only [List.map_cons, List.map_nil, byteOf, UInt8.toNat_ofNat']
  have := h.1
  have := h.2
  congr 3
  omega

/-! ## Commands -/

theorem obeys_sound {rand : Nat → Int} (hr : Server.RandOk rand) {x : SAL} {s s' : Server} {o : List SEff} {r : Py Bool}
    (h : Obeys rand x s o s' r) (hc : s.connected = true) :
    Server.onSal rand x s = (s', o, r) ∧ s'.connected = true := by
  cases h with
  | told _ e _ h =>
    refine ⟨?_, hc⟩
    cases x <;> simp only [told, Option.some.injEq, reduceCtorEq] at h <;> subst h <;> rfl
  | clock v _ l1 l2 h1 h2 =>
    refine ⟨?_, hc⟩
    have b0 : IsByte (rand s.rngPos) := by have := hr s.rngPos; unfold IsByte; omega
    have b2 : IsByte (rand (s.rngPos + 2)) := by have := hr (s.rngPos + 2); unfold IsByte; omega
    have e1 := queue_line rand mkLightOn .lightOn 0x79 s (Server.mkLightOn_spec _ b0).1 (lightOn_encode b0) rfl h1
    have e2 := queue_line rand mkLightOff .lightOff 0x01 { s with rngPos := s.rngPos + 2, queue := s.queue ++ [l1] }
      (Server.mkLightOff_spec _ b2).1 (lightOff_encode b2) rfl h2
    simp only [Server.onSal, Server.onClockUpdate, Proc.andThen, Proc.emit, e1, e2, pure]
    simp
  | presence ga _ l1 l2 l3 hb h1 h2 h3 =>
    refine ⟨?_, hc⟩
    have e1 := presenceLine_eq h1
    have e2 := presenceLine_eq h2
    have e3 := presenceLine_eq h3
    rw [block_presence.1] at e1
    rw [block_presence.2.1] at e2
    rw [block_presence.2.2] at e3
    subst e1 e2 e3
    have he : Server.onSal rand (.statusRequest false ga 0xff) s =
        Proc.andThen (Server.onMasterStatus ga) (fun _ => pure true) s := rfl
    rw [he]
    simp only [Proc.andThen, Server.onMasterStatus_eq ga s hc hb, pure]
    simp
  | smart ga _ hb =>
    refine ⟨?_, hc⟩
    have he : Server.onSal rand (.statusRequest false ga 0xff) s =
        Proc.andThen (Server.onMasterStatus ga) (fun _ => pure true) s := rfl
    rw [he]
    simp [Proc.andThen, Server.onMasterStatus, Proc.emit, hb]
  | unknown _ _ h =>
    refine ⟨?_, hc⟩
    cases x with
    | temperature _ _ => rfl
    | enableSet _ _ => rfl
    | statusRequest level ga app =>
      have hn : ¬ (app = appStatusRequest ∧ level = false) := by
        rintro ⟨h1, h2⟩
        rcases h with h | h
        · rw [h2] at h; cases h
        · exact h h1
      simp only [Server.onSal]
      rw [if_neg hn]
      rfl
    | _ => exact h.elim

theorem obeys_total (rand : Nat → Int) (x : SAL) (s : Server) : ∃ o s' r, Obeys rand x s o s' r := by
  cases x with
  | temperature _ _ => exact ⟨_, _, _, .unknown _ s trivial⟩
  | enableSet _ _ => exact ⟨_, _, _, .unknown _ s trivial⟩
  | clockUpdate v =>
    obtain ⟨l1, h1⟩ := reportLine_ok s.checksum (rand (s.rngPos + 1)) 0x79 (rand s.rngPos)
    obtain ⟨l2, h2⟩ := reportLine_ok s.checksum (rand (s.rngPos + 3)) 0x01 (rand (s.rngPos + 2))
    exact ⟨_, _, _, .clock v s l1 l2 h1 h2⟩
  | statusRequest level ga app =>
    by_cases h : level = true ∨ app ≠ 0xff
    · exact ⟨_, _, _, .unknown _ s h⟩
    · obtain ⟨rfl, rfl⟩ : level = false ∧ app = 0xff := by
        constructor
        · cases level with
          | false => rfl
          | true => exact absurd (Or.inl rfl) h
        · exact Classical.byContradiction fun h' => h (Or.inr h')
      cases hb : s.basic with
      | false => exact ⟨_, _, _, .smart ga s hb⟩
      | true =>
        obtain ⟨l1, h1⟩ := presenceLine_ok 0 22
        obtain ⟨l2, h2⟩ := presenceLine_ok 88 22
        obtain ⟨l3, h3⟩ := presenceLine_ok 176 20
        exact ⟨_, _, _, .presence ga s l1 l2 l3 hb h1 h2 h3⟩
  | _ => exact ⟨_, _, _, .told _ _ s rfl⟩

theorem obeysAll_sound {rand : Nat → Int} (hr : Server.RandOk rand) {l : List SAL} {s s' : Server} {o : List SEff}
    {r : Py Bool} (h : ObeysAll rand l s o s' r) (hc : s.connected = true) :
    Server.onSals rand l s = (s', o, r) ∧ s'.connected = true := by
  induction h with
  | nil s => exact ⟨rfl, hc⟩
  | next x l s s1 s2 o1 o2 r h _ ih =>
    obtain ⟨e1, c1⟩ := obeys_sound hr h hc
    obtain ⟨e2, c2⟩ := ih c1
    refine ⟨?_, c2⟩
    show Proc.andThen (Server.onSal rand x) (fun go => if go then Server.onSals rand l else pure false) s = _
    rw [andThen_ok e1]
    simp only [if_true, e2]
  | stops x l s s1 o r h hr' =>
    obtain ⟨e1, c1⟩ := obeys_sound hr h hc
    refine ⟨?_, c1⟩
    show Proc.andThen (Server.onSal rand x) (fun go => if go then Server.onSals rand l else pure false) s = _
    match r, hr' with
    | .error e, _ => rw [andThen_error e1]
    | .ok true, h' => exact absurd rfl h'
    | .ok false, _ =>
      rw [andThen_ok e1]
      simp [pure]

theorem obeysAll_total (rand : Nat → Int) : ∀ (l : List SAL) (s : Server), ∃ o s' r, ObeysAll rand l s o s' r := by
  intro l
  induction l with
  | nil => intro s; exact ⟨_, _, _, .nil s⟩
  | cons x l ih =>
    intro s
    obtain ⟨o1, s1, r1, h⟩ := obeys_total rand x s
    by_cases hr : r1 = .ok true
    · subst hr
      obtain ⟨o2, s2, r2, h2⟩ := ih s1
      exact ⟨_, _, _, .next x l s s1 s2 o1 o2 r2 h h2⟩
    · exact ⟨_, _, _, .stops x l s s1 o1 r1 h hr⟩

/-! ## Packets -/

theorem confirms_sound {conf : Option UInt8} (hcode : ∀ c, conf = some c → c ∈ confirmationCodes) {s s' : Server}
    {o : List SEff} (h : Confirms conf s o s') (hc : s.connected = true) :
    Server.confirm conf s = (s', o, .ok ()) ∧ s'.connected = true := by
  cases h with
  | silent => exact ⟨rfl, hc⟩
  | code c => exact ⟨Server.sendConfirmation_eq (hcode c rfl) true s hc, hc⟩

theorem confirms_total (conf : Option UInt8) (s : Server) : ∃ o s', Confirms conf s o s' := by
  cases conf with
  | none => exact ⟨_, _, .silent s⟩
  | some c => exact ⟨_, _, .code c s⟩

theorem option_bits (v : Int) : (lowByte v &&& 0x01 != 0) = (low v % 2 == 1) ∧ (lowByte v &&& 0x08 != 0) = (low v / 8 % 2 == 1) ∧
    (lowByte v &&& 0x10 == 0) = (low v / 16 % 2 == 0) ∧ (lowByte v &&& 0x20 != 0) = (low v / 32 % 2 == 1) ∧
    (lowByte v &&& 0x40 != 0) = (low v / 64 % 2 == 1) := by
  have key : ∀ b : UInt8, (b &&& 0x01 != 0) = (b.toNat % 2 == 1) ∧ (b &&& 0x08 != 0) = (b.toNat / 8 % 2 == 1) ∧
      (b &&& 0x10 == 0) = (b.toNat / 16 % 2 == 0) ∧ (b &&& 0x20 != 0) = (b.toNat / 32 % 2 == 1) ∧
      (b &&& 0x40 != 0) = (b.toNat / 64 % 2 == 1) := by apply forall_byte; decide +kernel
  have := key (lowByte v)
  rwa [lowByte_low] at this

theorem acts_sound {rand : Nat → Int} (hr : Server.RandOk rand) {p : Packet}
    (hcode : ∀ c, codeOf p = some c → c ∈ confirmationCodes) {s s' : Server} {o : List SEff} {r : Py Unit}
    (h : Acts rand p s o s' r) (hc : s.connected = true) :
    Server.onPacket rand p s = (s', o, r) ∧ s'.connected = true := by
  cases h with
  | reset => exact ⟨rfl, hc⟩
  | connect => exact ⟨rfl, hc⟩
  | commands q _ s1 _ o1 o2 h hf =>
    obtain ⟨e1, c1⟩ := obeysAll_sound hr h hc
    obtain ⟨e2, c2⟩ := confirms_sound (conf := q.conf) hcode hf c1
    refine ⟨?_, c2⟩
    show Proc.andThen (Server.onSals rand q.sals) (fun go => if go then Server.confirm q.conf else pure ()) s = _
    rw [andThen_ok e1]
    simp only [if_true, e2]
  | notUnderstood q _ _ _ h =>
    obtain ⟨e1, c1⟩ := obeysAll_sound hr h hc
    refine ⟨?_, c1⟩
    show Proc.andThen (Server.onSals rand q.sals) (fun go => if go then Server.confirm q.conf else pure ()) s = _
    rw [andThen_ok e1]
    simp [pure]
  | raises q _ _ _ e h =>
    obtain ⟨e1, c1⟩ := obeysAll_sound hr h hc
    refine ⟨?_, c1⟩
    show Proc.andThen (Server.onSals rand q.sals) (fun go => if go then Server.confirm q.conf else pure ()) s = _
    rw [andThen_error e1]
  | options q _ s1 _ h hf =>
    obtain ⟨e2, c2⟩ := confirms_sound (conf := q.conf) hcode hf hc
    refine ⟨?_, c2⟩
    have hd : Server.onDM q s =
        ({ s with connect := low q.value % 2 == 1, checksum := low q.value / 8 % 2 == 1,
                  basic := low q.value / 16 % 2 == 0, monitor := low q.value / 32 % 2 == 1,
                  idmon := low q.value / 64 % 2 == 1 }, [], .ok true) := by
      obtain ⟨b1, b2, b3, b4, b5⟩ := option_bits q.value
      unfold Server.onDM
      rw [if_neg (by omega), if_pos h]
      simp only [b1, b2, b3, b4, b5]
    show Proc.andThen (Server.onDM q) (fun go => if go then Server.confirm q.conf else pure ()) s = _
    rw [andThen_ok hd]
    simp only [if_true, e2, List.nil_append]
  | ignored q _ s1 _ h hf =>
    obtain ⟨e2, c2⟩ := confirms_sound (conf := q.conf) hcode hf hc
    refine ⟨?_, c2⟩
    have hd : Server.onDM q s = (s, [], .ok true) := by
      unfold Server.onDM
      rw [if_pos (by simpa using h)]
    show Proc.andThen (Server.onDM q) (fun go => if go then Server.confirm q.conf else pure ()) s = _
    rw [andThen_ok hd]
    simp only [if_true, e2, List.nil_append]
  | parameter q _ h =>
    refine ⟨?_, hc⟩
    simp only [List.mem_cons, List.not_mem_nil, or_false, not_or] at h
    have hd : Server.onDM q s = (s, [], .ok false) := by
      unfold Server.onDM
      rw [if_neg (by omega), if_neg (by omega)]
    show Proc.andThen (Server.onDM q) (fun go => if go then Server.confirm q.conf else pure ()) s = _
    rw [andThen_ok hd]
    simp [pure]
  | other _ _ h h1 h2 h3 =>
    refine ⟨?_, hc⟩
    cases p with
    | reset => exact absurd rfl h
    | smartConnect => exact absurd rfl h1
    | pm q => exact absurd rfl (h2 q)
    | dm q => exact absurd rfl (h3 q)
    | _ => rfl

theorem acts_total (rand : Nat → Int) (p : Packet) (s : Server) : ∃ o s' r, Acts rand p s o s' r := by
  cases p with
  | reset => exact ⟨_, _, _, .reset s⟩
  | smartConnect => exact ⟨_, _, _, .connect s⟩
  | pm q =>
    obtain ⟨o1, s1, r1, h⟩ := obeysAll_total rand q.sals s
    match r1 with
    | .error e => exact ⟨_, _, _, .raises q s s1 o1 e h⟩
    | .ok false => exact ⟨_, _, _, .notUnderstood q s s1 o1 h⟩
    | .ok true =>
      obtain ⟨o2, s2, h2⟩ := confirms_total q.conf s1
      exact ⟨_, _, _, .commands q s s1 s2 o1 o2 h h2⟩
  | dm q =>
    by_cases h : q.parameter = 0x30 ∨ q.parameter = 0x41
    · obtain ⟨o2, s2, h2⟩ := confirms_total q.conf _
      exact ⟨_, _, _, .options q s s2 o2 h h2⟩
    · by_cases h' : q.parameter ∈ [0x21, 0x22, 0x3e, 0x42]
      · obtain ⟨o2, s2, h2⟩ := confirms_total q.conf s
        exact ⟨_, _, _, .ignored q s s2 o2 h' h2⟩
      · refine ⟨_, _, _, .parameter q s ?_⟩
        simp only [List.mem_cons, List.not_mem_nil, or_false, not_or] at h h' ⊢
        omega
  | _ => exact ⟨_, _, _, .other _ s (by simp) (by simp) (by simp) (by simp)⟩

/-! ## The buffer -/

theorem serves_sound {rand : Nat → Int} (hr : Server.RandOk rand) {d : Bytes} {s s' : Server} {o : List SEff} {b : Bytes}
    {r : Py Unit} (h : Serves rand d s o b s' r) (hc : s.connected = true) :
    processBuffer (Server.handle rand) d s = (⟨b, s'⟩, o, r) ∧ s'.connected = true := by
  have hecho : ∀ (s : Server) (x : Bytes), s.connected = true →
      Server.echo x s = (s, if s.basic then [SEff.echo x] else [], .ok ()) := by
    intro s x hc
    unfold Server.echo
    split <;> simp [hc]
  have hne : ∀ (cs : Bool) (d : Bytes) (x : Option Packet) (n : Nat), ToPci cs true d (x, n) → n ≠ 0 → d ≠ [] := by
    intro cs d x n h hn hd
    have e := (C98_sent d cs true x n).2 h
    subst hd
    have : decodePacket [] cs true false = .ok (none, 0) := rfl
    rw [this] at e
    injection e with e
    injection e with _ e
    exact hn e.symm
  have hpos : ∀ (cs : Bool) (d : Bytes) (p : Packet) (n : Nat), ToPci cs true d (some p, n) → n ≠ 0 := by
    intro cs d p n h
    cases h <;> omega
  induction h with
  | waits d s h =>
    refine ⟨processBuffer_wait ?_, hc⟩
    have hp := (C98_sent _ _ _ _ _).2 h
    simp [Server.handle, handleData, hp, Proc.andThen, pure]
  | fault d s e h =>
    have hp := (C102_sent _ _ _ _).2 h
    refine ⟨processBuffer_error ?_ ?_, hc⟩
    · rintro rfl
      cases (show (Except.ok (none, 0) : Py (Option Packet × Nat)) = .error e from hp)
    · simp [Server.handle, handleData, hp]
  | skips d n s s' o d' r h hn _ ih =>
    have hp := (C98_sent _ _ _ _ _).2 h
    obtain ⟨e2, c2⟩ := ih hc
    refine ⟨?_, c2⟩
    have hstep := process_decoded (emu := true) (checksum := fun s : Server => s.checksum) (echo := Server.echo)
      (onPacket := Server.onPacket rand) (s := s) (hne _ _ _ _ h hn) hp (by omega)
    unfold Server.handle at e2 ⊢
    rw [hstep, if_pos rfl, andThen_ok (hecho s _ hc)]
    simp only [onDecoded, pure, followedBy, e2, List.append_nil]
  | message d p n s s1 s2 o1 o2 d' r h ho _ ih =>
    have hp := (C98_sent _ _ _ _ _).2 h
    have hn := hpos _ _ _ _ h
    obtain ⟨e1, c1⟩ := acts_sound hr (decoded_code hp) ho hc
    obtain ⟨e2, c2⟩ := ih c1
    refine ⟨?_, c2⟩
    have hstep := process_decoded (emu := true) (checksum := fun s : Server => s.checksum) (echo := Server.echo)
      (onPacket := Server.onPacket rand) (s := s) (hne _ _ _ _ h hn) hp (by omega)
    unfold Server.handle at e2 ⊢
    rw [hstep, if_pos rfl, andThen_ok (hecho s _ hc)]
    simp only [onDecoded, e1, followedBy, e2]
  | raises d p n s s1 o e h ho =>
    have hp := (C98_sent _ _ _ _ _).2 h
    have hn := hpos _ _ _ _ h
    obtain ⟨e1, c1⟩ := acts_sound hr (decoded_code hp) ho hc
    refine ⟨?_, c1⟩
    have hstep := process_decoded (emu := true) (checksum := fun s : Server => s.checksum) (echo := Server.echo)
      (onPacket := Server.onPacket rand) (s := s) (hne _ _ _ _ h hn) hp (by omega)
    unfold Server.handle
    rw [hstep, if_pos rfl, andThen_ok (hecho s _ hc)]
    simp only [onDecoded, e1, followedBy]

theorem serves_total (rand : Nat → Int) : ∀ (n : Nat) (d : Bytes) (s : Server), d.length ≤ n →
    ∃ o b s' r, Serves rand d s o b s' r := by
  intro n
  induction n with
  | zero =>
    intro d s hd
    have : d = [] := List.eq_nil_of_length_eq_zero (by omega)
    subst this
    exact ⟨_, _, _, _, .waits [] s ((C98_sent _ _ _ _ _).1 rfl)⟩
  | succ n ih =>
    intro d s hd
    by_cases hb : d = []
    · exact ih d s (by simp [hb])
    have hlen := List.length_pos_iff.mpr hb
    cases hp : decodePacket d s.checksum true false with
    | error e => exact ⟨_, _, _, _, .fault d s e ((C102_sent _ _ _ _).1 hp)⟩
    | ok x =>
      obtain ⟨x, c⟩ := x
      have hg := (C98_sent _ _ _ _ _).1 hp
      cases x with
      | none =>
        by_cases hc : c = 0
        · subst hc
          exact ⟨_, _, _, _, .waits d s hg⟩
        · obtain ⟨o, b, s', r, h⟩ := ih (d.drop c) s (by simp only [List.length_drop]; omega)
          exact ⟨_, _, _, _, .skips d c s s' o b r hg hc h⟩
      | some p =>
        have hc : 0 < c := by cases hg <;> omega
        obtain ⟨o1, s1, r1, h1⟩ := acts_total rand p s
        cases r1 with
        | error e => exact ⟨_, _, _, _, .raises d p c s s1 o1 e hg h1⟩
        | ok u =>
          obtain ⟨o, b, s', r, h⟩ := ih (d.drop c) s1 (by simp only [List.length_drop]; omega)
          exact ⟨_, _, _, _, .message d p c s s1 s' o1 o b r hg h1 h⟩

theorem hosts_sound {rand : Nat → Int} (hr : Server.RandOk rand) {b : Bytes} {s s' : Server} {ds : List Bytes}
    {o : List SEff} {b' : Bytes} {r : Py Unit} (h : Hosts rand b s ds o b' s' r) (hc : s.connected = true) :
    feed maxBufferSize (Server.handle rand) ds ⟨b, s⟩ = (⟨b', s'⟩, o, r) := by
  have e : maxBufferSize = 256 := rfl
  induction h with
  | silence => rfl
  | huge b s d ds h =>
    obtain ⟨q1, -, -⟩ := C39_overflow 256 (Server.handle rand) d ⟨b, s⟩
    simp only [feed, Proc.andThen, e, q1 h]
  | overflow b s d ds h1 h2 =>
    obtain ⟨-, q2, -⟩ := C39_overflow 256 (Server.handle rand) d ⟨b, s⟩
    simp only [feed, Proc.andThen, e, q2 h1 h2]
  | ends b s s' d ds o b' er hl h =>
    obtain ⟨-, -, q3⟩ := C39_overflow 256 (Server.handle rand) d ⟨b, s⟩
    simp only [feed, Proc.andThen, e, q3 hl, (serves_sound hr h hc).1]
  | goesOn b s s1 s2 d ds o1 o2 b1 b2 r hl h _ ih =>
    obtain ⟨-, -, q3⟩ := C39_overflow 256 (Server.handle rand) d ⟨b, s⟩
    obtain ⟨e1, c1⟩ := serves_sound hr h hc
    have e2 := ih c1
    rw [e] at e2
    simp only [feed, Proc.andThen, e, q3 hl, e1, e2]

theorem hosts_total (rand : Nat → Int) : ∀ (ds : List Bytes) (b : Bytes) (s : Server),
    ∃ o b' s' r, Hosts rand b s ds o b' s' r := by
  intro ds
  induction ds with
  | nil => intro b s; exact ⟨_, _, _, _, .silence b s⟩
  | cons d ds ih =>
    intro b s
    rcases Nat.lt_or_ge 256 d.length with h | h
    · exact ⟨_, _, _, _, .huge b s d ds h⟩
    rcases Nat.lt_or_ge 256 (b.length + d.length) with h' | h'
    · exact ⟨_, _, _, _, .overflow b s d ds h h'⟩
    obtain ⟨o1, b1, s1, r1, h1⟩ := serves_total rand (b ++ d).length (b ++ d) s (Nat.le_refl _)
    cases r1 with
    | error er => exact ⟨_, _, _, _, .ends b s s1 d ds o1 b1 er h' h1⟩
    | ok u =>
      obtain ⟨o, b', s', r, h3⟩ := ih b1 s1
      exact ⟨_, _, _, _, .goesOn b s s1 s' d ds o1 o b1 b' r h' h1 h3⟩

/-- C103: whatever is received, in whatever pieces, the connected simulated PCI does what
is written down and nothing else. -/
theorem C103_server (rand : Nat → Int) (hr : Server.RandOk rand) (b : Bytes) (s : Server) (hc : s.connected = true)
    (ds : List Bytes) (c : Conn Server) (o : List SEff) (r : Py Unit) :
    feed maxBufferSize (Server.handle rand) ds ⟨b, s⟩ = (c, o, r) ↔ Hosts rand b s ds o c.buf c.st r := by
  constructor
  · intro h
    obtain ⟨o', b', s', r', h'⟩ := hosts_total rand ds b s
    rw [hosts_sound hr h' hc] at h
    simp only [Prod.mk.injEq] at h
    obtain ⟨rfl, rfl, rfl⟩ := h
    exact h'
  · intro h
    exact hosts_sound hr h hc

/-- The options, a clock update whose confirmation brings two random events with it (with
checksums, as the options ask for), and a status request which is not implemented in
smart mode and stays in the buffer for ever. -/
example : ∃ l1 l2, Hosts (fun n => n % 100 + 1) [] { connected := true }
    [ascii "A33000", ascii "59g\r\\05DF000D010A0B0CFFEEh\r", ascii "\\05FF007AFF0083i\r"]
    [.echo (ascii "A3300059g\r"), .write (ascii "g."), .event (.clockUpdate (.time ⟨10, 11, 12, 0⟩)), .queued l1, .queued l2,
      .write (ascii "h."), .write l1, .write l2, .event (.masterStatus 0)]
    (ascii "\\05FF007AFF0083i\r")
    { connected := true, basic := false, connect := true, checksum := true, idmon := true, rngPos := 4 }
    (.error .notImplemented) ∧
    ReportLine true 2 0x79 1 l1 ∧ ReportLine true 4 0x01 3 l2 := by
  refine ⟨ascii "05023800790147\r\n", ascii "050438000103BB\r\n", ?_, ?_, ?_⟩
  · refine (C103_server _ ?_ [] _ rfl _ ⟨_, _⟩ _ _).1 ?_
    · intro n
      show (1 : Int) ≤ (n : Int) % 100 + 1 ∧ (n : Int) % 100 + 1 ≤ 100
      omega
    · decide +kernel
  · exact ⟨ascii "05023800790147", (spelled_iff true _ _).2 (by decide +kernel), by decide +kernel⟩
  · exact ⟨ascii "050438000103BB", (spelled_iff true _ _).2 (by decide +kernel), by decide +kernel⟩

end CBus.Props
