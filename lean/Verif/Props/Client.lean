import Verif.Lemmas.Client
import Verif.Props.Buffer
import Verif.Props.Sal
import Verif.Spec.Client
import Verif.Spec.Calendar

/-! # C43 – C48, C73: the client -/

namespace CBus.Props
open CBus CBus.Spec

variable {π : Type}

/-- Making a call. -/
def runCall (now : Nat → PyDateTime) : ClientCall → Proc Client (Eff π) (Option UInt8)
  | .on g => Client.lightingGroupOn g
  | .off g => Client.lightingGroupOff g
  | .terminate g => Client.lightingGroupTerminate g
  | .ramp g d l => Client.lightingGroupRamp g d l
  | .identify u a => Client.identify u a
  | .clock t => Client.clockDatetime now (some t)
  | .clockNow => Client.clockDatetime now none

/-! ## Helpers -/

theorem lowByte_eq (x : Int) : lowByte x = byteOf x := rfl

theorem mkByte_byteOf {x : Int} (h : IsByte x) : mkByte x = .ok (byteOf x) := by
  rw [mkByte_ok h.1 h.2, ← lowByte_eq, lowByte_of_range h.1 h.2]

theorem rampRate_code (d : Int) :
    durationToRampRate d = byteOf (rampCode (rampDurations.idxOf (quantise d))) := by
  have h1 := rampRateToDuration_durationToRampRate d
  have hq : quantise d ∈ rampDurations := (quantise_spec d).1
  have key : ∀ c : UInt8, ∀ q ∈ rampDurations, rampRateToDuration c.toNat = .ok q →
      c = byteOf (rampCode (rampDurations.idxOf q)) := by
    apply forall_byte; decide +kernel
  exact key _ _ hq h1

theorem mkPM_fresh (s : SAL) (l : List SAL) (h : ∀ x ∈ l, x.application = s.application) :
    mkPM true .class4 none (s :: l) = .ok { app := some s.application, sals := s :: l } := by
  unfold mkPM PM.appendAll PM.appendSal
  simp only [List.nil_append]
  rw [appendAll_ok s.application l _ rfl h]
  rfl

theorem pm_encodePacket (a : Int) (ab : UInt8) (sals : List SAL) (b : Bytes) (ha : mkByte a = .ok ab)
    (hb : encodeSals sals = .ok b) :
    (Packet.pm { app := some a, sals := sals }).encodePacket =
      .ok (b16encode (addChecksum (0x05 :: ab :: 0 :: b))) := by
  have hr : ¬ (a < 0 ∨ a > 0xff) := by
    have h1 := mkByte_ok_iff.1 ha
    have h2 := ab.toNat_lt
    omega
  have hf : headerBytes .pm false .class4 none = [0x05] := by decide
  simp only [Packet.encodePacket, PM.encode, hr, if_false, ha, hb, bind, Except.bind, pure, Except.pure, hf,
    if_true, List.cons_append, List.nil_append]

/-- What the three list calls have in common. -/
structure ListCall (mk : Int → Py SAL) (sal : Int → SAL) (code : UInt8) : Prop where
  ok : ∀ g, IsByte g → mk g = .ok (sal g)
  bad : ∀ g, ¬ IsByte g → mk g = .error .valueError
  enc : ∀ g, IsByte g → (sal g).encode = .ok [code, byteOf g]
  app : ∀ g, (sal g).application = appLighting

theorem listCall_on : ListCall mkLightOn .lightOn 0x79 where
  ok g h := by simp [mkLightOn, checkGa_byte h, bind, Except.bind, pure, Except.pure]
  bad g h := by
    have := (C04_group_address g).2.1.2 (by unfold IsByte at h; omega)
    simp [mkLightOn, this, bind, Except.bind]
  enc g h := by
    simp [SAL.encode, checkGa_byte h, mkByte_byteOf h, bind, Except.bind, pure, Except.pure, lcOn]
  app _ := rfl

theorem listCall_off : ListCall mkLightOff .lightOff 0x01 where
  ok g h := by simp [mkLightOff, checkGa_byte h, bind, Except.bind, pure, Except.pure]
  bad g h := by
    have := (C04_group_address g).2.1.2 (by unfold IsByte at h; omega)
    simp [mkLightOff, this, bind, Except.bind]
  enc g h := by
    simp [SAL.encode, checkGa_byte h, mkByte_byteOf h, bind, Except.bind, pure, Except.pure, lcOff]
  app _ := rfl

theorem listCall_terminate : ListCall mkLightTerminate .lightTerminate 0x09 where
  ok g h := by simp [mkLightTerminate, checkGa_byte h, bind, Except.bind, pure, Except.pure]
  bad g h := by
    have := (C04_group_address g).2.1.2 (by unfold IsByte at h; omega)
    simp [mkLightTerminate, this, bind, Except.bind]
  enc g h := by
    simp [SAL.encode, checkGa_byte h, mkByte_byteOf h, bind, Except.bind, pure, Except.pure, lcTerminate]
  app _ := rfl

namespace ListCall
variable {mk : Int → Py SAL} {sal : Int → SAL} {code : UInt8}

theorem mkAll_ok (h : ListCall mk sal code) : ∀ gas : List Int, (∀ g ∈ gas, IsByte g) →
    Client.mkAll mk gas = .ok (gas.map sal) := by
  intro gas
  induction gas with
  | nil => intro _; rfl
  | cons g gs ih =>
    intro hg
    simp [Client.mkAll, h.ok g (hg g (by simp)), ih (fun x hx => hg x (by simp [hx]))]

theorem mkAll_bad (h : ListCall mk sal code) : ∀ gas : List Int, ¬ (∀ g ∈ gas, IsByte g) →
    Client.mkAll mk gas = .error .valueError := by
  intro gas
  induction gas with
  | nil => intro hn; exact absurd (by simp) hn
  | cons g gs ih =>
    intro hn
    by_cases hg : IsByte g
    · have : ¬ ∀ g ∈ gs, IsByte g := by
        intro hall; apply hn; intro x hx
        simp only [List.mem_cons] at hx
        rcases hx with rfl | hx
        · exact hg
        · exact hall x hx
      simp [Client.mkAll, h.ok g hg, ih this]
    · simp [Client.mkAll, h.bad g hg]

theorem encode (h : ListCall mk sal code) : ∀ gas : List Int, (∀ g ∈ gas, IsByte g) →
    encodeSals (gas.map sal) = .ok (gas.flatMap fun a => [code, byteOf a]) := by
  intro gas
  induction gas with
  | nil => intro _; rfl
  | cons g gs ih =>
    intro hg
    simp [encodeSals, h.enc g (hg g (by simp)), ih (fun x hx => hg x (by simp [hx])), bind, Except.bind, pure,
      Except.pure]

theorem run_ok (h : ListCall mk sal code) (gas : List Int) (h1 : 1 ≤ gas.length) (h2 : gas.length ≤ 9)
    (hg : ∀ g ∈ gas, IsByte g) (s : Client) (hc : s.connected = true) (c : UInt8)
    (hk : confirmationCodes[s.nextConf]? = some c) :
    Client.lightingMany (π := π) mk gas s = ({ s with nextConf := (s.nextConf + 1) % 20 },
      [.write (0x5c :: b16encode (addChecksum ([0x05, 0x38, 0x00] ++ gas.flatMap fun a => [code, byteOf a])) ++
        [c, 0x0d])], .ok (some c)) := by
  unfold Client.lightingMany
  rw [if_neg (by omega), h.mkAll_ok gas hg]
  unfold Client.sendSals
  cases gas with
  | nil => simp at h1
  | cons g gs =>
    simp only [List.map_cons]
    rw [mkPM_fresh (sal g) (gs.map sal) (by
      intro x hx
      simp only [List.mem_map] at hx
      obtain ⟨y, -, rfl⟩ := hx
      rw [h.app, h.app])]
    simp only [h.app]
    have he := pm_encodePacket appLighting 0x38 (sal g :: gs.map sal) _ (by decide) (h.encode (g :: gs) hg)
    rw [Client.send_ok _ _ rfl he false s hc c hk]
    rfl

theorem run_raises (h : ListCall mk sal code) (gas : List Int) (s : Client) (e : PyErr)
    (hb : groupsRaise s.connected gas = some e) :
    Client.lightingMany (π := π) mk gas s = (s, [], .error e) := by
  unfold groupsRaise at hb
  unfold Client.lightingMany
  by_cases h9 : gas.length > 9
  · rw [if_pos (.inl h9)] at hb
    injection hb with hb
    subst hb
    rw [if_pos h9]; rfl
  · rw [if_neg h9]
    unfold Client.sendSals
    by_cases hg : ∀ g ∈ gas, IsByte g
    · rw [if_neg (by simp only [not_or, Decidable.not_not]; exact ⟨h9, hg⟩)] at hb
      rw [h.mkAll_ok gas hg]
      cases gas with
      | nil =>
        simp only [List.map_nil]
        have he : (Packet.pm {}).encodePacket = .error .valueError := rfl
        have hm : mkPM true .class4 none [] = .ok {} := rfl
        rw [hm]
        cases hc : s.connected with
        | true =>
          rw [hc] at hb
          injection hb with hb
          subst hb
          exact Client.send_error _ _ he false s hc
        | false =>
          rw [hc] at hb
          injection hb with hb
          subst hb
          exact Client.send_disconnected _ false s hc
      | cons g gs =>
        simp only [List.map_cons]
        rw [mkPM_fresh (sal g) (gs.map sal) (by
          intro x hx
          simp only [List.mem_map] at hx
          obtain ⟨y, -, rfl⟩ := hx
          rw [h.app, h.app])]
        cases hc : s.connected with
        | true => rw [hc] at hb; cases hb
        | false =>
          rw [hc] at hb
          injection hb with hb
          subst hb
          exact Client.send_disconnected _ false s hc
    · rw [if_pos (.inr hg)] at hb
      injection hb with hb
      subst hb
      rw [h.mkAll_bad gas hg]

end ListCall

theorem weekday_spec {wd : PyDate → Nat} (hwd : ∀ d : PyDate, d.Valid → IsWeekday d (wd d)) (d : PyDate)
    (hv : d.Valid) : wd d = d.weekday :=
  (isWeekday_unique (hwd d hv) d.year rfl hv.2.1).2

theorem clock_encode (t : PyDateTime) (ht : DateTimeOk t) :
    encodeSals (clockUpdateSal t) = .ok (clockBytes t t.date.weekday) := by
  obtain ⟨hd, h1, h2, h3, -⟩ := ht
  obtain ⟨-, d2, d3, d4, d5, d6⟩ := hd
  have hm := daysInMonth_le t.date.year t.date.month
  have hw : t.date.weekday < 7 := by unfold PyDate.weekday; omega
  have hb : ∀ n : Nat, n < 256 → packB n = .ok (byteOf n) := by
    intro n hn
    rw [packB_ok hn]
    unfold byteOf
    congr 2
    omega
  have hy : packH t.date.year = .ok [byteOf (t.date.year / 256), byteOf t.date.year] := by
    rw [packH_ok (by omega)]
    unfold byteOf
    congr 2
    · congr 1; omega
  simp only [clockUpdateSal, encodeSals, SAL.encode, clockValEncode, hb _ (show t.time.hour < 256 by omega),
    hb _ (show t.time.minute < 256 by omega), hb _ (show t.time.second < 256 by omega),
    hb _ (show t.date.month < 256 by omega), hb _ (show t.date.day < 256 by omega),
    hb _ (show t.date.weekday < 256 by omega), hy, bind, Except.bind, pure, Except.pure]
  rfl

theorem clock_run (t : PyDateTime) (ht : DateTimeOk t) (s : Client) :
    (s.connected = true → ∀ c, confirmationCodes[s.nextConf]? = some c →
      Client.sendSals (π := π) (.ok (clockUpdateSal t)) s = ({ s with nextConf := (s.nextConf + 1) % 20 },
        [.write (0x5c :: b16encode (addChecksum ([0x05, 0xdf, 0x00] ++ clockBytes t t.date.weekday)) ++
          [c, 0x0d])], .ok (some c))) ∧
    (s.connected = false → Client.sendSals (π := π) (.ok (clockUpdateSal t)) s = (s, [], .error .ioError)) := by
  unfold Client.sendSals
  have hm : mkPM true .class4 none (clockUpdateSal t) =
      .ok { app := some appClock, sals := clockUpdateSal t } := by
    unfold clockUpdateSal
    rw [mkPM_fresh _ _ (by simp [SAL.application])]
    rfl
  simp only [hm]
  refine ⟨fun hc c hk => ?_, fun hc => Client.send_disconnected _ false s hc⟩
  have he := pm_encodePacket appClock 0xdf _ _ (by decide) (clock_encode t ht)
  rw [Client.send_ok _ _ rfl he false s hc c hk]
  rfl

theorem level_check (i : Int) : ((PyNum.int i).ltRat 0 || (PyNum.int i).gtRat 255) = decide (¬ IsByte i) := by
  have h1 : ((i : Rat) < 0) ↔ i < 0 := by exact_mod_cast Iff.rfl
  have h2 : ((255 : Rat) < i) ↔ 255 < i := by
    have : ((255 : Rat) < i) ↔ (((255 : Int) : Rat) < i) := Iff.rfl
    rw [this]; exact Rat.intCast_lt_intCast
  unfold IsByte
  simp only [PyNum.ltRat, PyNum.gtRat, h1, h2]
  by_cases a : i < 0 <;> by_cases b : 255 < i <;> simp [a, b] <;> omega

/-- The third byte of a ramp. -/
def levelByte (l : PyNum) : UInt8 := match l with | .int i => byteOf i | _ => 0

theorem ramp_encode (ga d : Int) (l : PyNum) (hg : IsByte ga) (hl : LevelNumOk l) :
    (SAL.lightRamp ga d l).encode = .ok [byteOf (rampCode (rampDurations.idxOf (quantise d))), byteOf ga,
      levelByte l] := by
  cases l with
  | int i =>
    have hi : IsByte i := hl
    simp only [SAL.encode, level_check, hi, not_true, decide_false, Bool.false_eq_true, if_false,
      checkGa_byte hg, mkByte_byteOf hg, PyNum.toByte, mkByte_byteOf hi, rampRate_code, bind, Except.bind,
      pure, Except.pure, levelByte]
  | _ => exact absurd hl id

theorem ramp_encode_bad (ga d : Int) (l : PyNum) (hg : IsByte ga) (e : PyErr) (hl : levelRaises l = some e) :
    (SAL.lightRamp ga d l).encode = .error e := by
  cases l with
  | int i =>
    simp only [levelRaises] at hl
    split at hl
    · cases hl
    · rename_i hi
      injection hl with hl
      subst hl
      simp only [SAL.encode, level_check, hi, not_false_eq_true, decide_true, if_true, throw, throwThe,
        MonadExceptOf.throw, bind, Except.bind]
  | flt q =>
    simp only [levelRaises] at hl
    simp only [SAL.encode, PyNum.toByte, PyNum.ltRat, PyNum.gtRat, checkGa_byte hg, mkByte_byteOf hg, throw, throwThe,
      MonadExceptOf.throw, bind, Except.bind, pure, Except.pure, Bool.or_eq_true, decide_eq_true_eq]
    split at hl
    · rename_i h
      injection hl with hl
      rw [if_pos h, hl]
    · rename_i h
      injection hl with hl
      rw [if_neg h, hl]
  | nan =>
    injection hl with hl
    subst hl
    simp only [SAL.encode, PyNum.toByte, PyNum.ltRat, PyNum.gtRat, checkGa_byte hg, mkByte_byteOf hg, throw, throwThe,
      MonadExceptOf.throw, bind, Except.bind, pure, Except.pure, Bool.or_false, Bool.false_eq_true, if_false]
  | inf neg =>
    injection hl with hl
    subst hl
    cases neg <;>
      simp only [SAL.encode, PyNum.ltRat, PyNum.gtRat, throw, throwThe, Bool.not_true, Bool.not_false,
        MonadExceptOf.throw, bind, Except.bind, Bool.or_true, Bool.true_or, if_true]

theorem mkLightRamp_ok (ga d : Int) (l : PyNum) (hg : IsByte ga) :
    mkLightRamp ga d l = .ok (.lightRamp ga d l) := by
  simp [mkLightRamp, checkGa_byte hg, bind, Except.bind, pure, Except.pure]

theorem run_ok (now : Nat → PyDateTime) (wd : PyDate → Nat) (hwd : ∀ d : PyDate, d.Valid → IsWeekday d (wd d))
    (hnow : ∀ n, DateTimeOk (now n)) (call : ClientCall) (hok : call.Ok) (ht : call.TimeOk)
    (s : Client) (hc : s.connected = true) (c : UInt8) (hk : confirmationCodes[s.nextConf]? = some c) :
    runCall (π := π) now call s =
      ({ s with nextConf := (s.nextConf + 1) % 20,
                clockReads := s.clockReads + if call = .clockNow then 1 else 0 },
       [.write (0x5c :: b16encode (addChecksum (call.frame (now s.clockReads) wd)) ++ [c, 0x0d])],
       .ok (some c)) := by
  cases call with
  | on g => exact listCall_on.run_ok g hok.1 hok.2.1 hok.2.2 s hc c hk
  | off g => exact listCall_off.run_ok g hok.1 hok.2.1 hok.2.2 s hc c hk
  | terminate g => exact listCall_terminate.run_ok g hok.1 hok.2.1 hok.2.2 s hc c hk
  | ramp g d l =>
    have h2 := ramp_encode g d l hok.1 hok.2
    simp only [runCall, Client.lightingGroupRamp, mkLightRamp_ok g d l hok.1, Client.sendSals]
    rw [mkPM_fresh _ _ (by simp)]
    have he := pm_encodePacket appLighting 0x38 [SAL.lightRamp g d l] _ (by decide)
      (by simp [encodeSals, h2, bind, Except.bind, pure, Except.pure]; rfl)
    simp only [SAL.application]
    rw [Client.send_ok _ _ rfl he false s hc c hk]
    rfl
  | identify u a =>
    have he : (Packet.pp { unit := u, hops := [], bridged := false, cals := [.identify a] }).encodePacket =
        .ok (b16encode (addChecksum [0x06, byteOf u, 0x00, 0x21, byteOf a])) := by
      have hf : headerBytes .pp false .class4 none = [0x06] := by decide
      simp only [Packet.encodePacket, PP.encode, mkByte_byteOf (x := u) hok, encodeCals, CAL.encode, bind, Except.bind,
        pure, Except.pure, hf, Bool.false_eq_true, if_false, if_true, List.cons_append, List.nil_append, lowByte_eq,
        List.append_nil]
    simp only [runCall, Client.identify, mkPP, ne_eq, not_true, if_false]
    rw [Client.send_ok _ _ rfl he false s hc c hk]
    rfl
  | clock t =>
    have := (clock_run (π := π) t ht s).1 hc c hk
    rw [← weekday_spec hwd t.date ht.1] at this
    exact this
  | clockNow =>
    have hv := hnow s.clockReads
    have := (clock_run (π := π) (now s.clockReads) hv { s with clockReads := s.clockReads + 1 }).1 hc c hk
    rw [← weekday_spec hwd _ hv.1] at this
    exact this

theorem run_raises (now : Nat → PyDateTime) (hnow : ∀ n, DateTimeOk (now n)) (call : ClientCall) (ht : call.TimeOk)
    (s : Client) (e : PyErr) (hb : call.raises s.connected = some e) :
    runCall (π := π) now call s =
      ({ s with clockReads := s.clockReads + if call = .clockNow then 1 else 0 }, [], .error e) := by
  cases call with
  | on g => exact listCall_on.run_raises g s e hb
  | off g => exact listCall_off.run_raises g s e hb
  | terminate g => exact listCall_terminate.run_raises g s e hb
  | ramp g d l =>
    simp only [runCall, Client.lightingGroupRamp, Client.sendSals]
    simp only [ClientCall.raises] at hb
    by_cases hg : IsByte g
    · rw [if_neg (not_not_intro hg)] at hb
      rw [mkLightRamp_ok g d l hg]
      simp only
      rw [mkPM_fresh _ _ (by simp)]
      rcases Bool.eq_false_or_eq_true s.connected with hc | hc
      · rw [hc, if_neg (by decide)] at hb
        have he := ramp_encode_bad g d l hg e hb
        refine Client.send_error _ e ?_ false s hc
        have hm : mkByte appLighting = .ok 0x38 := by decide
        have hr : ¬ (appLighting < 0 ∨ appLighting > 0xff) := by decide
        simp only [Packet.encodePacket, PM.encode, SAL.application, hr, if_false, hm, encodeSals, he, bind, Except.bind]
      · rw [hc, if_pos rfl] at hb
        injection hb with hb
        subst hb
        exact Client.send_disconnected _ false s hc
    · rw [if_pos hg] at hb
      injection hb with hb
      subst hb
      have := (C04_group_address g).2.1.2 (by unfold IsByte at hg; omega)
      simp only [mkLightRamp, this, bind, Except.bind]
      rfl
  | identify u a =>
    simp only [runCall, Client.identify, mkPP, ne_eq, not_true, if_false]
    simp only [ClientCall.raises] at hb
    rcases Bool.eq_false_or_eq_true s.connected with hc | hc
    · rw [hc, if_neg (by decide)] at hb
      split at hb
      · cases hb
      · rename_i hu
        injection hb with hb
        subst hb
        refine Client.send_error _ _ ?_ false s hc
        have : mkByte u = .error .valueError := mkByte_err (by unfold IsByte at hu; exact hu)
        simp only [Packet.encodePacket, PP.encode, this, bind, Except.bind, Bool.false_eq_true, if_false, pure, Except.pure]
    · rw [hc, if_pos rfl] at hb
      injection hb with hb
      subst hb
      exact Client.send_disconnected _ false s hc
  | clock t =>
    simp only [ClientCall.raises] at hb
    split at hb
    · rename_i hc
      injection hb with hb
      subst hb
      exact (clock_run t ht s).2 hc
    · cases hb
  | clockNow =>
    simp only [ClientCall.raises] at hb
    split at hb
    · rename_i hc
      injection hb with hb
      subst hb
      exact (clock_run _ (hnow _) { s with clockReads := s.clockReads + 1 }).2 hc
    · cases hb

theorem groupsRaise_iff (connected : Bool) (g : List Int) :
    (∃ e, groupsRaise connected g = some e) ↔
      ¬ (1 ≤ g.length ∧ g.length ≤ 9 ∧ ∀ a ∈ g, IsByte a) ∨ connected = false := by
  unfold groupsRaise
  by_cases h1 : 9 < g.length ∨ ¬ ∀ a ∈ g, IsByte a
  · rw [if_pos h1]
    refine ⟨fun _ => .inl ?_, fun _ => ⟨_, rfl⟩⟩
    rintro ⟨-, h2, h3⟩
    rcases h1 with h1 | h1
    · omega
    · exact h1 h3
  · rw [if_neg h1]
    simp only [not_or, Decidable.not_not] at h1
    cases connected with
    | false => exact ⟨fun _ => .inr rfl, fun _ => ⟨_, rfl⟩⟩
    | true =>
      rw [if_neg (by decide)]
      cases g with
      | nil => exact ⟨fun _ => .inl (by simp), fun _ => ⟨_, rfl⟩⟩
      | cons a g =>
        rw [if_neg (by simp)]
        constructor
        · rintro ⟨e, h⟩; cases h
        · rintro (h | h)
          · exact absurd ⟨by simp, by omega, h1.2⟩ h
          · cases h

theorem levelRaises_iff (l : PyNum) : (∃ e, levelRaises l = some e) ↔ ¬ LevelNumOk l := by
  cases l with
  | int i =>
    simp only [levelRaises, LevelNumOk]
    split <;> simp_all
  | flt q =>
    simp only [levelRaises, LevelNumOk, not_false_eq_true, iff_true]
    split <;> exact ⟨_, rfl⟩
  | inf neg => exact ⟨fun _ h => h, fun _ => ⟨_, rfl⟩⟩
  | nan => exact ⟨fun _ h => h, fun _ => ⟨_, rfl⟩⟩

/-- A call raises iff it is not acceptable or there is no connection. -/
theorem raises_iff (connected : Bool) (call : ClientCall) :
    (∃ e, call.raises connected = some e) ↔ ¬ call.Ok ∨ connected = false := by
  cases call with
  | on g => exact groupsRaise_iff connected g
  | off g => exact groupsRaise_iff connected g
  | terminate g => exact groupsRaise_iff connected g
  | ramp g d l =>
    simp only [ClientCall.raises, ClientCall.Ok]
    by_cases hg : IsByte g
    · rw [if_neg (not_not_intro hg)]
      cases connected with
      | false => exact ⟨fun _ => .inr rfl, fun _ => ⟨_, rfl⟩⟩
      | true =>
        rw [if_neg (by decide), levelRaises_iff]
        simp [hg]
    · rw [if_pos hg]
      exact ⟨fun _ => .inl (fun h => hg h.1), fun _ => ⟨_, rfl⟩⟩
  | identify u a =>
    simp only [ClientCall.raises, ClientCall.Ok]
    cases connected with
    | false => exact ⟨fun _ => .inr rfl, fun _ => ⟨_, rfl⟩⟩
    | true =>
      rw [if_neg (by decide)]
      split <;> simp_all
  | clock t => simp only [ClientCall.raises, ClientCall.Ok]; cases connected <;> simp
  | clockNow => simp only [ClientCall.raises, ClientCall.Ok]; cases connected <;> simp

theorem run_bad (now : Nat → PyDateTime) (hnow : ∀ n, DateTimeOk (now n)) (call : ClientCall) (ht : call.TimeOk)
    (s : Client) (hb : ¬ call.Ok ∨ s.connected = false) :
    ∃ e, runCall (π := π) now call s =
      ({ s with clockReads := s.clockReads + if call = .clockNow then 1 else 0 }, [], .error e) := by
  obtain ⟨e, he⟩ := (raises_iff s.connected call).2 hb
  exact ⟨e, run_raises now hnow call ht s e he⟩

/-! ## C44, C45 -/

/-- C44: an accepted call makes exactly one `transport.write`: a backslash, the
base16 of the frame for exactly that call followed by a byte that makes it sum
to zero, the confirmation code and CR. It returns that code. -/
theorem C44_one_command (now : Nat → PyDateTime) (wd : PyDate → Nat)
    (hwd : ∀ d : PyDate, d.Valid → IsWeekday d (wd d)) (hnow : ∀ n, DateTimeOk (now n))
    (call : ClientCall) (hok : call.Ok) (ht : call.TimeOk) (s : Client) (hc : s.connected = true)
    (hk : s.nextConf < 20) :
    ∃ k c, (runCall (π := π) now call s).2 =
        ([.write (0x5c :: b16encode (call.frame (now s.clockReads) wd ++ [k]) ++ [c, 0x0d])], .ok (some c)) ∧
      SumsToZero (call.frame (now s.clockReads) wd ++ [k]) ∧ cycleFrom s.nextConf 1 = [c] := by
  obtain ⟨c, h1, h2⟩ := code_at hk
  refine ⟨cbusChecksum (call.frame (now s.clockReads) wd), c, ?_, ?_, ?_⟩
  · rw [run_ok now wd hwd hnow call hok ht s hc c h1]; rfl
  · exact (C01_checksum_valid _).2.2
  · have : ∀ k : Fin 20, ∀ c, confirmationCodes[k.1]? = some c → cycleFrom k.1 1 = [c] := by decide +kernel
    exact this ⟨s.nextConf, hk⟩ c h1

example : (ClientCall.ramp 7 4 (.int 128)).Ok ∧
    (runCall (π := Empty) (fun _ => ⟨⟨2024, 1, 1⟩, ⟨0, 0, 0, 0⟩⟩) (.ramp 7 4 (.int 128))
      { connected := true, nextConf := 19 }).2 =
    ([.write (ascii "\\0538000A078032g\r")], .ok (some 0x67)) := by decide +kernel

example : (runCall (π := Empty) (fun _ => ⟨⟨2024, 1, 1⟩, ⟨0, 0, 0, 0⟩⟩) (.on [1, 2])
      { connected := true }).2 = ([.write (ascii "\\05380079017902CEh\r")], .ok (some 0x68)) := by decide +kernel

/-- C45: a call that raises writes nothing and leaves the object as it was (only
the system clock may have been read). -/
theorem C45_no_effect (now : Nat → PyDateTime) (hnow : ∀ n, DateTimeOk (now n)) (call : ClientCall)
    (ht : call.TimeOk) (s : Client) (hk : s.nextConf < 20) (e : PyErr)
    (h : (runCall (π := π) now call s).2.2 = .error e) :
    (runCall (π := π) now call s).2.1 = [] ∧
    { (runCall (π := π) now call s).1 with clockReads := s.clockReads } = s := by
  by_cases hb : ¬ call.Ok ∨ s.connected = false
  · obtain ⟨e', he⟩ := run_bad (π := π) now hnow call ht s hb
    rw [he]; exact ⟨rfl, rfl⟩
  · simp only [not_or, Decidable.not_not, Bool.not_eq_false] at hb
    obtain ⟨c, h1, -⟩ := code_at hk
    rw [run_ok now PyDate.weekday (fun d hd => isWeekday_weekday d hd) hnow call hb.1 ht s hb.2 c h1] at h
    cases h

/-- C45: what it raises: `ValueError` for addresses, numbers of addresses and levels out
of range, `TypeError` for a level that is not an integer, and `IOError` without a
connection. -/
theorem C45_kind (now : Nat → PyDateTime) (hnow : ∀ n, DateTimeOk (now n)) (call : ClientCall)
    (ht : call.TimeOk) (s : Client) (hk : s.nextConf < 20) (e : PyErr) :
    (runCall (π := π) now call s).2.2 = .error e ↔ call.raises s.connected = some e := by
  constructor
  · intro h
    by_cases hb : ¬ call.Ok ∨ s.connected = false
    · obtain ⟨e', he⟩ := (raises_iff s.connected call).2 hb
      rw [run_raises now hnow call ht s e' he] at h
      injection h with h
      rw [← h]; exact he
    · simp only [not_or, Decidable.not_not, Bool.not_eq_false] at hb
      obtain ⟨c, h1, -⟩ := code_at hk
      rw [run_ok now PyDate.weekday (fun d hd => isWeekday_weekday d hd) hnow call hb.1 ht s hb.2 c h1] at h
      cases h
  · intro h
    rw [run_raises now hnow call ht s e h]

example : (ClientCall.ramp 7 4 .nan).raises true = some .typeError ∧
    (ClientCall.ramp 7 4 (.flt 256)).raises true = some .valueError ∧
    (ClientCall.ramp 7 4 (.flt (1/2))).raises true = some .typeError ∧
    (ClientCall.ramp 256 4 (.flt (1/2))).raises false = some .valueError ∧
    (ClientCall.on []).raises false = some .ioError ∧ (ClientCall.on [1]).raises true = none := by decide +kernel

/-- C45: and it raises exactly when disconnected or when the arguments are not
acceptable. -/
theorem C45_exactly (now : Nat → PyDateTime) (hnow : ∀ n, DateTimeOk (now n)) (call : ClientCall)
    (ht : call.TimeOk) (s : Client) (hk : s.nextConf < 20) :
    (∃ e, (runCall (π := π) now call s).2.2 = .error e) ↔ ¬ call.Ok ∨ s.connected = false := by
  constructor
  · rintro ⟨e, h⟩
    apply Decidable.byContradiction
    intro hb
    simp only [not_or, Decidable.not_not, Bool.not_eq_false] at hb
    obtain ⟨c, h1, -⟩ := code_at hk
    rw [run_ok now PyDate.weekday (fun d hd => isWeekday_weekday d hd) hnow call hb.1 ht s hb.2 c h1] at h
    cases h
  · intro hb
    obtain ⟨e, he⟩ := run_bad (π := π) now hnow call ht s hb
    exact ⟨e, by rw [he]⟩

example : ¬ (ClientCall.on (List.replicate 10 1)).Ok ∧ ¬ (ClientCall.on []).Ok ∧ ¬ (ClientCall.off [1, 256]).Ok ∧
    ¬ (ClientCall.ramp 1 0 (.int 256)).Ok ∧ ¬ (ClientCall.ramp 1 0 (.flt 0)).Ok ∧ ¬ (ClientCall.identify (-1) 0).Ok ∧
    (ClientCall.terminate [0, 255]).Ok := by decide

/-! ## C46 -/

/-- C46: whatever happened to the object before, connecting writes three resets
and the three option commands, each option command with the next confirmation
code; then time synchronisation is started if it is configured. -/
theorem C46_connect (s : Client) (hk : s.nextConf < 20) :
    ∃ c1 c2 c3, cycleFrom s.nextConf 3 = [c1, c2, c3] ∧
      Client.connectionMade (π := π) s =
        ({ s with connected := true, nextConf := (s.nextConf + 3) % 20 },
         [.write (ascii "~\r"), .write (ascii "~\r"), .write (ascii "~\r"),
          .write (ascii "A3210038" ++ [c1, 0x0d]), .write (ascii "A342000E" ++ [c2, 0x0d]),
          .write (ascii "A3300059" ++ [c3, 0x0d])] ++ (if s.timesync = 0 then [] else [.startTimesync]), .ok ()) := by
  have key : ∀ k : Fin 20, ∃ c1 ∈ confirmationCodes, ∃ c2 ∈ confirmationCodes, ∃ c3 ∈ confirmationCodes,
      confirmationCodes[k.1]? = some c1 ∧ confirmationCodes[(k.1 + 1) % 20]? = some c2 ∧
      confirmationCodes[((k.1 + 1) % 20 + 1) % 20]? = some c3 ∧ cycleFrom k.1 3 = [c1, c2, c3] := by decide +kernel
  obtain ⟨c1, -, c2, -, c3, -, h1, h2, h3, h4⟩ := key ⟨s.nextConf, hk⟩
  refine ⟨c1, c2, c3, h4, ?_⟩
  have hr : Packet.reset.encodePacket = .ok (ascii "~") := by decide +kernel
  have d1 : (Packet.dm { checksum := false, parameter := 0x21, value := 0x38 }).encodePacket =
    .ok (ascii "A3210038") := by decide +kernel
  have d2 : (Packet.dm { checksum := false, parameter := 0x42, value := 0x0e }).encodePacket =
    .ok (ascii "A342000E") := by decide +kernel
  have d3 : (Packet.dm { checksum := false, parameter := 0x30, value := 0x59 }).encodePacket =
    .ok (ascii "A3300059") := by decide +kernel
  have m : ((s.nextConf + 1) % 20 + 1) % 20 = (s.nextConf + 2) % 20 := by omega
  unfold Client.connectionMade Client.pciReset
  simp only [Proc.andThen, Proc.modify]
  rw [Client.send_special _ _ rfl hr false { s with connected := true } rfl]
  simp only
  rw [Client.send_special _ _ rfl hr false { s with connected := true } rfl]
  simp only
  rw [Client.send_special _ _ rfl hr false { s with connected := true } rfl]
  simp only
  rw [Client.send_ok _ _ rfl d1 true { s with connected := true } rfl c1 h1]
  simp only
  rw [Client.send_ok _ _ rfl d2 true _ rfl c2 h2]
  simp only
  rw [Client.send_ok _ _ rfl d3 true _ rfl c3 h3]
  have m3 : (((s.nextConf + 1) % 20 + 1) % 20 + 1) % 20 = (s.nextConf + 3) % 20 := by omega
  by_cases ht : s.timesync = 0 <;>
    simp [ht, pure, m3, List.append_assoc] <;> decide +kernel

example : (Client.connectionMade (π := Empty) { nextConf := 18 }).2.1 =
    [.write (ascii "~\r"), .write (ascii "~\r"), .write (ascii "~\r"), .write (ascii "A3210038z\r"),
     .write (ascii "A342000Eg\r"), .write (ascii "A3300059h\r"), .startTimesync] := by decide +kernel


/-! ## C43 -/

/-- The confirmation codes written, in order. -/
def codesOf (o : List (Eff π)) : List UInt8 :=
  o.filterMap fun e => match e with
    | .write w => confirmationOf w
    | _ => none

theorem codesOf_append (a b : List (Eff π)) : codesOf (a ++ b) = codesOf a ++ codesOf b := by
  simp [codesOf]

theorem cycleFrom_add (k m n : Nat) : cycleFrom k (m + n) = cycleFrom k m ++ cycleFrom ((k + m) % 20) n := by
  unfold cycleFrom
  rw [List.range_add, List.map_append, List.map_map]
  congr 1
  apply List.map_congr_left
  intro i _
  simp only [Function.comp]
  congr 1
  omega

/-- The codes written continue the cycle. -/
def CycleStep (k : Nat) (o : List (Eff π)) (k' : Nat) : Prop :=
  ∃ n, codesOf o = cycleFrom k n ∧ k' = (k + n) % 20

theorem CycleStep.nil {k : Nat} (hk : k < 20) : CycleStep (π := π) k [] k :=
  ⟨0, rfl, by omega⟩

theorem CycleStep.append {k1 k2 k3 : Nat} {a b : List (Eff π)} (h1 : CycleStep k1 a k2) (h2 : CycleStep k2 b k3) :
    CycleStep k1 (a ++ b) k3 := by
  obtain ⟨n, e1, e2⟩ := h1
  obtain ⟨m, f1, f2⟩ := h2
  exact ⟨n + m, by rw [codesOf_append, e1, f1, cycleFrom_add, e2], by omega⟩

theorem CycleStep.lt {k k' : Nat} {a : List (Eff π)} (h : CycleStep k a k') : k' < 20 := by
  obtain ⟨n, -, e⟩ := h; omega

/-- A method under which the codes cycle. -/
def Cycles {α : Type} (m : Proc Client (Eff π) α) : Prop :=
  ∀ s, s.nextConf < 20 → CycleStep s.nextConf (m s).2.1 (m s).1.nextConf

namespace Cycles
variable {α β : Type}

theorem pure (a : α) : Cycles (π := π) (pure a) := fun _ hk => .nil hk

theorem emit {e : Eff π} (h : ∀ w, e ≠ .write w) : Cycles (Proc.emit e) := by
  intro s hk
  refine ⟨0, ?_, by simp [Proc.emit]; omega⟩
  cases e <;> first | rfl | exact absurd rfl (h _)

theorem andThen {m : Proc Client (Eff π) α} {f : α → Proc Client (Eff π) β} (hm : Cycles m) (hf : ∀ a, Cycles (f a)) :
    Cycles (Proc.andThen m f) := by
  intro s hk
  have h1 := hm s hk
  unfold Proc.andThen
  split
  · rename_i s1 o1 e he
    rw [he] at h1; exact h1
  · rename_i s1 o1 a he
    rw [he] at h1
    exact h1.append (hf a s1 h1.lt)

theorem send (p : Packet) (b : Bool) : Cycles (π := π) (Client.send p b) := by
  intro s hk
  by_cases hc : s.connected = true
  · cases he : p.encodePacket with
    | error e => rw [Client.send_error p e he b s hc]; exact .nil hk
    | ok w =>
      by_cases hs : Client.isSpecial p = true
      · rw [Client.send_special p w hs he b s hc]
        refine ⟨0, ?_, by simp; omega⟩
        cases p <;> first
          | (exact absurd hs Bool.false_ne_true)
          | (cases he; rfl)
      · simp only [Bool.not_eq_true] at hs
        obtain ⟨c, h1, h2⟩ := code_at hk
        rw [Client.send_ok p w hs he b s hc c h1]
        refine ⟨1, ?_, rfl⟩
        have key : ∀ k : Fin 20, ∀ c ∈ confirmationCodes, confirmationCodes[k.1]? = some c →
            cycleFrom k.1 1 = [c] ∧ 0x67 ≤ c ∧ c ≤ 0x7a := by decide +kernel
        obtain ⟨k1, k2⟩ := key ⟨s.nextConf, hk⟩ c h2 h1
        simp only [codesOf, List.filterMap_cons, confirmationOf, List.reverse_append, List.reverse_cons, List.reverse_nil,
          List.nil_append, List.cons_append, k2, and_self, if_true, List.filterMap_nil]
        exact k1.symm
  · simp only [Bool.not_eq_true] at hc
    rw [Client.send_disconnected p b s hc]; exact .nil hk

theorem sendSals (x : Py (List SAL)) : Cycles (π := π) (Client.sendSals x) := by
  intro s hk
  unfold Client.sendSals
  split
  · exact .nil hk
  · split
    · exact .nil hk
    · exact send _ _ s hk

theorem clockDatetime (now : Nat → PyDateTime) (w : Option PyDateTime) :
    Cycles (π := π) (Client.clockDatetime now w) := by
  intro s hk
  unfold Client.clockDatetime
  split
  · exact sendSals _ s hk
  · exact sendSals _ _ hk

theorem runCall (now : Nat → PyDateTime) (c : ClientCall) : Cycles (π := π) (runCall now c) := by
  have hl : ∀ mk gas, Cycles (π := π) (Client.lightingMany mk gas) := by
    intro mk gas s hk
    unfold Client.lightingMany
    split
    · exact .nil hk
    · exact sendSals _ s hk
  cases c with
  | on g => exact hl _ _
  | off g => exact hl _ _
  | terminate g => exact hl _ _
  | ramp g d l => exact sendSals _
  | identify u a =>
    intro s hk
    simp only [Props.runCall, Client.identify]
    split
    · exact .nil hk
    · exact send _ _ s hk
  | clock t => exact clockDatetime _ _
  | clockNow => exact clockDatetime _ _

theorem connectionMade : Cycles (π := π) Client.connectionMade := by
  have hr : Cycles (π := π) Client.pciReset :=
    andThen (send _ _) fun _ => andThen (send _ _) fun _ => andThen (send _ _) fun _ =>
      andThen (send _ _) fun _ => andThen (send _ _) fun _ => andThen (send _ _) fun _ => pure ()
  refine andThen (fun s hk => .nil hk) fun _ => andThen hr fun _ => ?_
  intro s hk
  simp only
  split
  · exact ⟨0, rfl, by simp; omega⟩
  · exact .nil hk

theorem connectionLost : Cycles (π := π) Client.connectionLost := by
  intro s hk
  unfold Client.connectionLost
  split <;> exact .nil hk

theorem baseHook (now : Nat → PyDateTime) (e : Event) : Cycles (π := π) (Client.baseHook now e) := by
  intro s hk
  unfold Client.baseHook
  split
  · split
    · exact andThen (clockDatetime now none) (fun _ => pure ()) s hk
    · exact .nil hk
  · exact .nil hk

theorem call {hook : Event → Proc Client (Eff π) Unit} (hh : ∀ e, Cycles (hook e)) (e : Event) :
    Cycles (Client.call hook e) :=
  andThen (emit (by simp)) fun _ => hh e

theorem onSals {hook : Event → Proc Client (Eff π) Unit} (hh : ∀ e, Cycles (hook e)) (src : Option Int) :
    ∀ l, Cycles (Client.onSals hook src l)
  | [] => pure ()
  | s :: l => by
    refine andThen ?_ fun _ => onSals hh src l
    cases s <;> first | exact call hh _ | exact pure ()

theorem onPacket {hook : Event → Proc Client (Eff π) Unit} (hh : ∀ e, Cycles (hook e)) (p : Packet) :
    Cycles (Client.onPacket hook p) := by
  cases p <;> first | exact call hh _ | exact onSals hh _ _ | exact pure ()

theorem handle {hook : Event → Proc Client (Eff π) Unit} (hh : ∀ e, Cycles (hook e)) (b : Bytes) :
    Cycles (Client.handle hook b) := by
  intro s hk
  unfold Client.handle handleData
  split
  · exact .nil hk
  · rename_i p n _
    refine andThen (m := if (false : Bool) = true ∧ 0 < n then _ else _) ?_ (fun _ => andThen ?_ fun _ => pure _) s hk
    · simp only [Bool.false_eq_true, false_and, if_false]; exact pure ()
    · cases p with
      | none => exact pure ()
      | some q => exact onPacket hh q

theorem processBuffer {handle : Bytes → Proc Client (Eff π) Int} (hh : ∀ b, Cycles (handle b)) :
    ∀ (n : Nat) (b : Bytes) (s : Client), b.length ≤ n → s.nextConf < 20 →
      CycleStep s.nextConf (CBus.processBuffer handle b s).2.1 (CBus.processBuffer handle b s).1.st.nextConf := by
  intro n
  induction n with
  | zero =>
    intro b s hn hk
    have : b = [] := List.eq_nil_of_length_eq_zero (by omega)
    subst this
    rw [processBuffer_nil]; exact .nil hk
  | succ n ih =>
    intro b s hn hk
    by_cases hb : b = []
    · subst hb; rw [processBuffer_nil]; exact .nil hk
    · have hl := List.length_pos_iff.mpr hb
      have h1 := hh b s hk
      rw [CBus.processBuffer, dif_neg hb]
      split
      · rename_i s1 o1 e he
        rw [he] at h1; exact h1
      · rename_i s1 o1 r he
        rw [he] at h1
        split
        · exact h1
        · split
          · exact h1
          · split
            · rename_i hr
              have h2 := ih (b.drop r.toNat) s1 (by simp only [List.length_drop]; omega) h1.lt
              exact h1.append h2
            · exact h1

theorem dataReceived {hook : Event → Proc Client (Eff π) Unit} (hh : ∀ e, Cycles (hook e)) (d : Bytes)
    (c : Conn Client) (hk : c.st.nextConf < 20) :
    CycleStep c.st.nextConf (Client.dataReceived hook d c).2.1 (Client.dataReceived hook d c).1.st.nextConf := by
  unfold Client.dataReceived CBus.dataReceived
  split
  · exact .nil hk
  · split
    · exact .nil hk
    · exact processBuffer (fun b => handle hh b) _ _ _ (Nat.le_refl _) hk

end Cycles

/-- What can happen to a `PCIProtocol`. -/
inductive ClientOp
  | call (c : ClientCall)
  | made
  | lost
  | receive (d : Bytes)

/-- A method of the object, with the receive buffer alongside. -/
def onConn {α : Type} (m : Proc Client (Eff π) α) (c : Conn Client) : Conn Client × List (Eff π) :=
  ({ c with st := (m c.st).1 }, (m c.st).2.1)

/-- One operation; whoever performs it copes with any exception. -/
def runOp (hook : Event → Proc Client (Eff π) Unit) (now : Nat → PyDateTime) :
    ClientOp → Conn Client → Conn Client × List (Eff π)
  | .call k, c => onConn (runCall now k) c
  | .made, c => onConn Client.connectionMade c
  | .lost, c => onConn Client.connectionLost c
  | .receive d, c => ((Client.dataReceived hook d c).1, (Client.dataReceived hook d c).2.1)

/-- A history: everything it did. -/
def runOps (hook : Event → Proc Client (Eff π) Unit) (now : Nat → PyDateTime) :
    List ClientOp → Conn Client → Conn Client × List (Eff π)
  | [], c => (c, [])
  | op :: ops, c =>
    let r := runOp hook now op c
    let r' := runOps hook now ops r.1
    (r'.1, r.2 ++ r'.2)

theorem runOp_cycles (hook : Event → Proc Client (Eff π) Unit) (hh : ∀ e, Cycles (hook e)) (now : Nat → PyDateTime)
    (op : ClientOp) (c : Conn Client) (hk : c.st.nextConf < 20) :
    CycleStep c.st.nextConf (runOp hook now op c).2 (runOp hook now op c).1.st.nextConf := by
  cases op with
  | call k => exact Cycles.runCall now k c.st hk
  | made => exact Cycles.connectionMade c.st hk
  | lost => exact Cycles.connectionLost c.st hk
  | receive d => exact Cycles.dataReceived hh d c hk

theorem runOps_cycles (hook : Event → Proc Client (Eff π) Unit) (hh : ∀ e, Cycles (hook e)) (now : Nat → PyDateTime) :
    ∀ (ops : List ClientOp) (c : Conn Client), c.st.nextConf < 20 →
      CycleStep c.st.nextConf (runOps hook now ops c).2 (runOps hook now ops c).1.st.nextConf := by
  intro ops
  induction ops with
  | nil => intro c hk; exact .nil hk
  | cons op ops ih =>
    intro c hk
    have h1 := runOp_cycles hook hh now op c hk
    exact h1.append (ih _ h1.lt)

/-- C43: over any history of a new object – calls, connections, disconnections,
received data, in any order, with or without exceptions – the codes written are
`hijklmnopqrstuvwxyzg` over and over. -/
theorem C43_cycle (now : Nat → PyDateTime) (ops : List ClientOp) (c : Conn Client) (h0 : c.st.nextConf = 0) :
    let codes := codesOf (runOps (π := π) (Client.baseHook now) now ops c).2
    codes = cycleFrom 0 codes.length := by
  obtain ⟨n, h1, -⟩ := runOps_cycles (π := π) (Client.baseHook now) (Cycles.baseHook now) now ops c (by omega)
  have hn : (cycleFrom c.st.nextConf n).length = n := by simp [cycleFrom]
  intro codes
  have : codes = cycleFrom c.st.nextConf n := h1
  rw [this, hn, h0]

theorem cycleFrom_window (k n i m : Nat) (h : i + m ≤ n) :
    ((cycleFrom k n).drop i).take m = cycleFrom (k + i) m := by
  unfold cycleFrom
  apply List.ext_getElem?
  intro j
  simp only [List.getElem?_take, List.getElem?_drop, List.getElem?_map]
  by_cases hj : j < m
  · rw [if_pos hj, List.getElem?_range (by omega), List.getElem?_range hj]
    simp only [Option.map_some]
    congr 2
    omega
  · rw [if_neg hj, List.getElem?_eq_none (by simp; omega)]; rfl

/-- C43: so any twenty consecutive commands that ask for a confirmation carry
twenty different codes. -/
theorem C43_distinct (now : Nat → PyDateTime) (ops : List ClientOp) (c : Conn Client) (h0 : c.st.nextConf = 0) (i : Nat) :
    (((codesOf (runOps (π := π) (Client.baseHook now) now ops c).2).drop i).take 20).Nodup := by
  have h := C43_cycle (π := π) now ops c h0
  simp only at h
  generalize codesOf (runOps (π := π) (Client.baseHook now) now ops c).2 = codes at h ⊢
  generalize hl : codes.length = len at h
  have key : ∀ k : Fin 20, ∀ m : Fin 21, (cycleFrom k.1 m.1).Nodup := by decide +kernel
  have hmod : ∀ m, cycleFrom (0 + i) m = cycleFrom (i % 20) m := by
    intro m
    unfold cycleFrom
    apply List.map_congr_left
    intro j _
    congr 1
    omega
  by_cases hi : i + 20 ≤ len
  · rw [h, cycleFrom_window _ _ _ _ hi, hmod]
    exact key ⟨i % 20, by omega⟩ ⟨20, by omega⟩
  · by_cases hi' : i ≤ len
    · have ht : (codes.drop i).take 20 = (codes.drop i).take (len - i) := by
        rw [List.take_of_length_le (by simp; omega), List.take_of_length_le (by simp; omega)]
      rw [ht, h, cycleFrom_window _ _ _ _ (by omega), hmod]
      exact key ⟨i % 20, by omega⟩ ⟨_, by omega⟩
    · rw [List.drop_eq_nil_of_le (by omega)]; simp

/-- C43: the code returned is the one written, and a failing call uses up no
code. -/
theorem C43_returned (now : Nat → PyDateTime) (hnow : ∀ n, DateTimeOk (now n)) (call : ClientCall) (ht : call.TimeOk)
    (s : Client) (hk : s.nextConf < 20) :
    (∀ r, (runCall (π := π) now call s).2.2 = .ok r → codesOf (runCall (π := π) now call s).2.1 = r.toList ∧ r.isSome) ∧
    (∀ e, (runCall (π := π) now call s).2.2 = .error e → (runCall (π := π) now call s).1.nextConf = s.nextConf) := by
  constructor
  · intro r hr
    by_cases hb : ¬ call.Ok ∨ s.connected = false
    · obtain ⟨e', he⟩ := run_bad (π := π) now hnow call ht s hb
      rw [he] at hr; cases hr
    · simp only [not_or, Decidable.not_not, Bool.not_eq_false] at hb
      have hw : ∀ d : PyDate, d.Valid → IsWeekday d d.weekday := fun d hd => isWeekday_weekday d hd
      obtain ⟨k, c, h1, -, h3⟩ := C44_one_command (π := π) now PyDate.weekday hw hnow call hb.1 ht s hb.2 hk
      rw [h1] at hr ⊢
      simp only [Except.ok.injEq] at hr
      subst hr
      refine ⟨?_, rfl⟩
      obtain ⟨n, g1, g2⟩ := Cycles.runCall (π := π) now call s hk
      have hc : 0x67 ≤ c ∧ c ≤ 0x7a := by
        have key : ∀ k : Fin 20, ∀ c ∈ cycleFrom k.1 1, 0x67 ≤ c ∧ c ≤ 0x7a := by decide +kernel
        exact key ⟨s.nextConf, hk⟩ c (by rw [h3]; simp)
      simp [codesOf, confirmationOf, hc]
  · intro e he
    have := (C45_no_effect (π := π) now hnow call ht s hk e he).2
    have h2 := congrArg Client.nextConf this
    exact h2

example : codesOf (runOps (π := Empty) (Client.baseHook fun _ => ⟨⟨2024, 1, 1⟩, ⟨0, 0, 0, 0⟩⟩)
    (fun _ => ⟨⟨2024, 1, 1⟩, ⟨0, 0, 0, 0⟩⟩)
    [.call (.on [1]), .made, .call (.on []), .call (.off [3]), .receive (ascii "0505DF00110303\r\n"), .lost,
      .call .clockNow, .made] ⟨[], {}⟩).2 = ascii "hijklmno" := by decide +kernel

end CBus.Props
