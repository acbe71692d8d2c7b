import Verif.Lemmas.Ramp
import Verif.Lemmas.Cal
import Verif.Spec.Sal

/-! Helper lemmas about SALs: encoding one SAL and decoding it with anything
behind it. -/

namespace CBus
open Spec Props

/-- `(x :: ·)` under `Except`. -/
def pcons {α : Type} (x : α) (r : Py (List α)) : Py (List α) :=
  match r with
  | .ok l => .ok (x :: l)
  | .error e => .error e

def pappend {α : Type} (xs : List α) (r : Py (List α)) : Py (List α) :=
  match r with
  | .ok l => .ok (xs ++ l)
  | .error e => .error e

theorem pcons_pappend {α : Type} (x : α) (xs : List α) (r : Py (List α)) :
    pcons x (pappend xs r) = pappend (x :: xs) r := by cases r <;> rfl

theorem checkGa_byte {ga : Int} (h : IsByte ga) : checkGa ga = .ok () := by
  unfold IsByte at h
  simp [checkGa, validateGa, h.1]; omega

theorem mkByte_isByte {x : Int} (h : IsByte x) :
    ∃ b : UInt8, mkByte x = .ok b ∧ (b.toNat : Int) = x :=
  ⟨_, mkByte_ok h.1 h.2, ofNat_toNat_int h.1 h.2⟩

theorem checkGa_uint8 (b : UInt8) : checkGa b.toNat = .ok () := by
  have := b.toNat_lt
  exact checkGa_byte ⟨by omega, by omega⟩

/-! ### Lighting -/

theorem lightingDecode_on (g : UInt8) (suf : Bytes) :
    lightingDecode (lcOn :: g :: suf) = pcons (.lightOn g.toNat) (lightingDecode suf) := by
  have h : lightHandler lcOn = some .on := by decide
  rw [lightingDecode]
  simp only [h, mkLightOn, checkGa_uint8, bind, Except.bind, pure, Except.pure]
  cases lightingDecode suf <;> rfl

theorem lightingDecode_off (g : UInt8) (suf : Bytes) :
    lightingDecode (lcOff :: g :: suf) = pcons (.lightOff g.toNat) (lightingDecode suf) := by
  have h : lightHandler lcOff = some .off := by decide
  rw [lightingDecode]
  simp only [h, mkLightOff, checkGa_uint8, bind, Except.bind, pure, Except.pure]
  cases lightingDecode suf <;> rfl

theorem lightingDecode_terminate (g : UInt8) (suf : Bytes) :
    lightingDecode (lcTerminate :: g :: suf) = pcons (.lightTerminate g.toNat) (lightingDecode suf) := by
  have h : lightHandler lcTerminate = some .terminate := by decide
  rw [lightingDecode]
  simp only [h, mkLightTerminate, checkGa_uint8, bind, Except.bind, pure, Except.pure]
  cases lightingDecode suf <;> rfl

theorem lightingDecode_ramp (c g l : UInt8) (q : Int) (hq : rampRateToDuration c.toNat = .ok q)
    (suf : Bytes) : lightingDecode (c :: g :: l :: suf) =
      pcons (.lightRamp g.toNat q (.int l.toNat)) (lightingDecode suf) := by
  rw [lightingDecode]
  simp only [lightHandler_ramp c q hq, hq, mkLightRamp, checkGa_uint8, bind, Except.bind, pure, Except.pure]
  cases lightingDecode suf <;> rfl

/-- Lighting decoding never raises. -/
theorem lightingDecode_total : ∀ (n : Nat) (d : Bytes), d.length ≤ n → ∃ l, lightingDecode d = .ok l := by
  intro n
  induction n with
  | zero => intro d hd; simp at hd; subst hd; exact ⟨[], by rw [lightingDecode]⟩
  | succ n ih =>
    intro d hd
    match d, hd with
    | [], _ => exact ⟨[], by rw [lightingDecode]⟩
    | [_], _ => exact ⟨[], by rw [lightingDecode]⟩
    | cmd :: ga :: rest, hd =>
      obtain ⟨l, hl⟩ := ih rest (by simp at hd; omega)
      rw [lightingDecode]
      split
      · exact ⟨[], rfl⟩
      · simp [mkLightOn, checkGa_uint8, hl, bind, Except.bind, pure, Except.pure]
      · simp [mkLightOff, checkGa_uint8, hl, bind, Except.bind, pure, Except.pure]
      · simp [mkLightTerminate, checkGa_uint8, hl, bind, Except.bind, pure, Except.pure]
      · rename_i hr
        obtain ⟨q, hq⟩ := rampRate_of_handler cmd hr
        simp only [hq]
        match rest, hd with
        | [], _ => exact ⟨[], rfl⟩
        | lv :: rest', hd =>
          obtain ⟨l', hl'⟩ := ih rest' (by simp at hd; omega)
          simp [mkLightRamp, checkGa_uint8, hl', bind, Except.bind, pure, Except.pure]

/-! ### Clock -/

theorem clockDecode_request (suf : Bytes) :
    clockDecode (0x11 :: 0x03 :: suf) = pcons .clockRequest (clockDecode suf) := by
  rw [clockDecode]
  have h1 : ¬ ((0x11 : UInt8) &&& 0x80 = 0x80) := by decide
  have h2 : ¬ ((0x11 : UInt8) &&& 0xe0 ≠ 0) := by decide
  have h3 : ¬ ((0x11 : UInt8) &&& 0xf8 = 0x08) := by decide
  rw [if_neg h1, if_neg h2, if_neg h3, if_pos rfl]
  have e : clockRequestDecode (0x03 :: suf) = .ok (some .clockRequest, suf) := by
    simp [clockRequestDecode, byteAt, bind, Except.bind, pure, Except.pure]
  split
  · rename_i e' he; rw [e] at he; cases he
  · rename_i r hr
    rw [e] at hr; injection hr with hr; subst hr
    simp only
    cases clockDecode suf <;> rfl

/-- One clock update, given what its own decoder makes of it. -/
theorem clockDecode_update (cmd : UInt8) (data : Bytes) (r : Option SAL × Bytes)
    (hc : cmd &&& 0xf8 = 0x08) (hd : clockUpdateDecode data cmd = .ok r) :
    clockDecode (cmd :: data) = match clockDecode r.2 with
      | .error e => .error e
      | .ok l => .ok (consOpt r.1 l) := by
  rw [clockDecode]
  have key : ∀ cmd : UInt8, cmd &&& 0xf8 = 0x08 → ¬ (cmd &&& 0x80 = 0x80) ∧ ¬ (cmd &&& 0xe0 ≠ 0) := by
    apply forall_byte; decide +kernel
  obtain ⟨h1, h2⟩ := key cmd hc
  rw [if_neg h1, if_neg h2, if_pos hc]
  split
  · rename_i e' he; rw [hd] at he; cases he
  · rename_i r' hr
    rw [hd] at hr; injection hr with hr; subst hr
    rfl

theorem clockUpdateDecode_date (yh yl m d w : UInt8) (suf : Bytes) (dt : PyDate)
    (h : mkDate (yh.toNat * 256 + yl.toNat) m.toNat d.toNat = .ok dt) :
    clockUpdateDecode (0x02 :: yh :: yl :: m :: d :: w :: suf) 0x0e =
      .ok (some (.clockUpdate (.date dt)), suf) := by
  have hl : ((0x0e : UInt8) &&& 7).toNat = 6 := by decide
  simp only [clockUpdateDecode, byteAt, List.getElem?_cons_zero, bind, Except.bind, hl, if_true,
    ne_eq, not_true, if_false, pure, Except.pure]
  simp [h]

theorem clockUpdateDecode_time (hh m s x : UInt8) (suf : Bytes) (t : PyTime)
    (h : mkTime hh.toNat m.toNat s.toNat = .ok t) :
    clockUpdateDecode (0x01 :: hh :: m :: s :: x :: suf) 0x0d =
      .ok (some (.clockUpdate (.time t)), suf) := by
  have hl : ((0x0d : UInt8) &&& 7).toNat = 5 := by decide
  have h2 : ¬ ((0x01 : UInt8) = 0x02) := by decide
  simp only [clockUpdateDecode, byteAt, List.getElem?_cons_zero, bind, Except.bind, hl, if_true,
    ne_eq, not_true, if_false, pure, Except.pure, h2]
  simp [h]

theorem packB_ok {n : Nat} (h : n < 256) : packB n = .ok (UInt8.ofNat n) := by simp [packB, h]

theorem packH_ok {n : Nat} (h : n < 65536) :
    packH n = .ok [UInt8.ofNat (n / 256), UInt8.ofNat (n % 256)] := by simp [packH, h]

theorem daysInMonth_le (y m : Nat) : daysInMonth y m ≤ 31 := by
  unfold daysInMonth; repeat' split
  all_goals omega

theorem date_encode (d : PyDate) (hv : d.Valid) :
    ∃ yh yl m dd w : UInt8, (SAL.clockUpdate (.date d)).encode = .ok [0x0e, 0x02, yh, yl, m, dd, w] ∧
      yh.toNat * 256 + yl.toNat = d.year ∧ m.toNat = d.month ∧ dd.toNat = d.day ∧
      w.toNat = d.weekday := by
  have hd := daysInMonth_le d.year d.month
  have hw : d.weekday < 7 := by unfold PyDate.weekday; omega
  obtain ⟨h1, h2, h3, h4, h5, h6⟩ := hv
  refine ⟨UInt8.ofNat (d.year / 256), UInt8.ofNat (d.year % 256), UInt8.ofNat d.month, UInt8.ofNat d.day,
    UInt8.ofNat d.weekday, ?_, ?_, ?_, ?_, ?_⟩
  · simp only [SAL.encode, clockValEncode, packH_ok (show d.year < 65536 by omega),
      packB_ok (show d.month < 256 by omega), packB_ok (show d.day < 256 by omega),
      packB_ok (show d.weekday < 256 by omega), bind, Except.bind, pure, Except.pure]
    rfl
  · rw [toNat_ofNat_lt (by omega), toNat_ofNat_lt (by omega)]; omega
  · rw [toNat_ofNat_lt (by omega)]
  · rw [toNat_ofNat_lt (by omega)]
  · rw [toNat_ofNat_lt (by omega)]

theorem time_encode (t : PyTime) (hv : t.Valid) :
    ∃ h m s : UInt8, (SAL.clockUpdate (.time t)).encode = .ok [0x0d, 0x01, h, m, s, 255] ∧
      h.toNat = t.hour ∧ m.toNat = t.minute ∧ s.toNat = t.second := by
  obtain ⟨h1, h2, h3, -⟩ := hv
  refine ⟨UInt8.ofNat t.hour, UInt8.ofNat t.minute, UInt8.ofNat t.second, ?_, ?_, ?_, ?_⟩
  · simp only [SAL.encode, clockValEncode, packB_ok (show t.hour < 256 by omega),
      packB_ok (show t.minute < 256 by omega), packB_ok (show t.second < 256 by omega),
      bind, Except.bind, pure, Except.pure]
    rfl
  · rw [toNat_ofNat_lt (by omega)]
  · rw [toNat_ofNat_lt (by omega)]
  · rw [toNat_ofNat_lt (by omega)]

/-! ### Temperature -/

theorem truncRat_nonneg {q : Rat} (h : 0 ≤ q) : truncRat q = q.floor := by simp [truncRat, h]

theorem floor_range {q : Rat} (h0 : 0 ≤ q) (h1 : q ≤ 255 / 4) :
    0 ≤ (q * 4).floor ∧ (q * 4).floor < 256 := by
  constructor
  · rw [Rat.le_floor_iff]; grind
  · rw [Rat.floor_lt_iff]; grind

theorem int_mul_floor (i : Int) : ((i : Rat) * 4).floor = i * 4 := by
  have : ((i : Rat) * 4) = ((i * 4 : Int) : Rat) := by simp
  rw [this, Rat.floor_intCast]

theorem temperature_encode (ga : Int) (t : PyNum) (q : Rat) (hg : IsByte ga)
    (hv : numValue t = some q) (h0 : 0 ≤ q) (h1 : q ≤ 255 / 4) :
    ∃ g k : UInt8, (SAL.temperature ga t).encode = .ok [0x02, g, k] ∧ (g.toNat : Int) = ga ∧
      (k.toNat : Int) = (q * 4).floor := by
  obtain ⟨r0, r1⟩ := floor_range h0 h1
  obtain ⟨g, e1, e2⟩ := mkByte_isByte hg
  obtain ⟨k, k1, k2⟩ := mkByte_isByte (x := (q * 4).floor) ⟨r0, r1⟩
  refine ⟨g, k, ?_, e2, k2⟩
  cases t with
  | nan => simp [numValue] at hv
  | inf b => simp [numValue] at hv
  | int i =>
    simp only [numValue, Option.some.injEq] at hv
    subst hv
    have hf : tempByte (.int i) = .ok k := by
      simp only [tempByte]; rw [← int_mul_floor, k1]
    simp [SAL.encode, PyNum.geRat, PyNum.leRat, h0, h1, checkGa_byte hg, e1, hf, bind, Except.bind,
      pure, Except.pure]
  | flt r =>
    simp only [numValue, Option.some.injEq] at hv
    subst hv
    have hf : tempByte (.flt r) = .ok k := by
      simp only [tempByte]; rw [truncRat_nonneg (by grind), k1]
    simp [SAL.encode, PyNum.geRat, PyNum.leRat, h0, h1, checkGa_byte hg, e1, hf, bind, Except.bind,
      pure, Except.pure]

theorem temperatureDecode_cons (g k : UInt8) (suf : Bytes) :
    temperatureDecode (0x02 :: g :: k :: suf) =
      .temperature g.toNat (.flt ((k.toNat : Rat) / 4)) :: temperatureDecode suf := by
  rw [temperatureDecode]
  rw [if_neg (by decide), if_neg (by decide)]

theorem enableDecode_cons (g k : UInt8) (suf : Bytes) :
    enableDecode (0x02 :: g :: k :: suf) = .enableSet g.toNat k.toNat :: enableDecode suf := by
  rw [enableDecode]
  rw [if_neg (by decide), if_neg (by decide)]

/-! ### Status requests -/

theorem mask_e0 (b : UInt8) : (b &&& 0xe0) &&& 0x1f = 0 ∧ (b &&& 0xe0).toNat = b.toNat / 32 * 32 := by
  revert b; apply forall_byte; decide +kernel

theorem statusDecode_binary (app g : UInt8) (suf : Bytes) (hg : g &&& 0x1f = 0) :
    statusDecode (0x7a :: app :: g :: suf) =
      pcons (.statusRequest false g.toNat app.toNat) (statusDecode suf) := by
  rw [statusDecode]
  rw [if_pos (Or.inl rfl)]
  simp only [statusBody, hg, ne_eq, not_true, if_false, bind, Except.bind, pure, Except.pure]
  cases statusDecode suf <;> rfl

theorem statusDecode_level (app g : UInt8) (suf : Bytes) (hg : g &&& 0x1f = 0) :
    statusDecode (0x73 :: 0x07 :: app :: g :: suf) =
      pcons (.statusRequest true g.toNat app.toNat) (statusDecode suf) := by
  rw [statusDecode]
  rw [if_neg (by decide), if_pos rfl]
  simp only [statusBody, hg, ne_eq, not_true, if_false, bind, Except.bind, pure, Except.pure]
  cases statusDecode suf <;> rfl

theorem not_lt_zero_of {x : Int} (h : 0 ≤ x) : ¬ ((x : Rat) < 0) := by
  have : ((0 : Int) : Rat) ≤ (x : Rat) := Rat.intCast_le_intCast.2 h
  rw [Rat.intCast_zero] at this
  grind

theorem not_gt_255_of {x : Int} (h : x < 256) : ¬ ((255 : Rat) < (x : Rat)) := by
  have : (x : Rat) ≤ ((255 : Int) : Rat) := Rat.intCast_le_intCast.2 (by omega)
  rw [Rat.intCast_ofNat] at this
  grind

/-! ### All applications -/

/-- The handler that the specification expects for a SAL. -/
def handlerOf : SAL → AppHandler
  | .lightOn _ | .lightOff _ | .lightTerminate _ | .lightRamp _ _ _ => .lighting
  | .clockUpdate _ | .clockRequest => .clock
  | .temperature _ _ => .temperature
  | .enableSet _ _ => .enable
  | .statusRequest _ _ _ => .statusRequest

theorem decodeSals_encode (s : SAL) (hs : SalOk s) (suf : Bytes) :
    ∃ b, s.encode = .ok b ∧ 0 < b.length ∧
      (handlerOf s).decodeSals (b ++ suf) = pcons (received s) ((handlerOf s).decodeSals suf) := by
  cases s with
  | lightOn ga =>
    obtain ⟨g, e1, e2⟩ := mkByte_isByte hs
    refine ⟨[lcOn, g], by simp [SAL.encode, checkGa_byte hs, e1, bind, Except.bind, pure, Except.pure],
      by simp, ?_⟩
    simp only [handlerOf, AppHandler.decodeSals, List.cons_append, List.nil_append, lightingDecode_on,
      e2, received]
  | lightOff ga =>
    obtain ⟨g, e1, e2⟩ := mkByte_isByte hs
    refine ⟨[lcOff, g], by simp [SAL.encode, checkGa_byte hs, e1, bind, Except.bind, pure, Except.pure],
      by simp, ?_⟩
    simp only [handlerOf, AppHandler.decodeSals, List.cons_append, List.nil_append, lightingDecode_off,
      e2, received]
  | lightTerminate ga =>
    obtain ⟨g, e1, e2⟩ := mkByte_isByte hs
    refine ⟨[lcTerminate, g],
      by simp [SAL.encode, checkGa_byte hs, e1, bind, Except.bind, pure, Except.pure], by simp, ?_⟩
    simp only [handlerOf, AppHandler.decodeSals, List.cons_append, List.nil_append,
      lightingDecode_terminate, e2, received]
  | lightRamp ga d l =>
    obtain ⟨hg, hl⟩ := hs
    cases l with
    | int lv =>
      obtain ⟨g, e1, e2⟩ := mkByte_isByte hg
      obtain ⟨lb, l1, l2⟩ := mkByte_isByte hl
      have r1 : ¬ ((lv : Rat) < 0) := not_lt_zero_of hl.1
      have r2 : ¬ ((255 : Rat) < (lv : Rat)) := not_gt_255_of hl.2
      refine ⟨[durationToRampRate d, g, lb], ?_, by simp, ?_⟩
      · simp [SAL.encode, PyNum.ltRat, PyNum.gtRat, r1, r2, checkGa_byte hg, e1, PyNum.toByte, l1, bind,
          Except.bind, pure, Except.pure]
      · simp only [handlerOf, AppHandler.decodeSals, List.cons_append, List.nil_append]
        rw [lightingDecode_ramp _ _ _ _ (rampRateToDuration_durationToRampRate d), e2, l2]
        rfl
    | flt _ => exact hl.elim
    | nan => exact hl.elim
    | inf _ => exact hl.elim
  | clockUpdate v =>
    cases v with
    | date d =>
      have hv : d.Valid := hs
      obtain ⟨yh, yl, m, dd, w, e, h1, h2, h3, h4⟩ := date_encode d hv
      refine ⟨_, e, by simp, ?_⟩
      have hm : mkDate (yh.toNat * 256 + yl.toNat) m.toNat dd.toNat = .ok d := by
        rw [h1, h2, h3]; unfold mkDate; rw [if_pos hv]
      simp only [handlerOf, AppHandler.decodeSals, List.cons_append, List.nil_append]
      rw [clockDecode_update 0x0e _ _ (by decide) (clockUpdateDecode_date yh yl m dd w suf d hm)]
      simp only [received, consOpt]
      cases clockDecode suf <;> rfl
    | time t =>
      have hv : t.Valid := hs
      obtain ⟨h, m, s, e, h1, h2, h3⟩ := time_encode t hv
      refine ⟨_, e, by simp, ?_⟩
      have hm : mkTime h.toNat m.toNat s.toNat = .ok ⟨t.hour, t.minute, t.second, 0⟩ := by
        rw [h1, h2, h3]; unfold mkTime
        rw [if_pos ⟨hv.1, hv.2.1, hv.2.2.1, Nat.zero_lt_succ _⟩]
      simp only [handlerOf, AppHandler.decodeSals, List.cons_append, List.nil_append]
      rw [clockDecode_update 0x0d _ _ (by decide) (clockUpdateDecode_time h m s 255 suf _ hm)]
      simp only [received, consOpt]
      cases clockDecode suf <;> rfl
  | clockRequest =>
    refine ⟨_, rfl, by simp, ?_⟩
    simp only [handlerOf, AppHandler.decodeSals, List.cons_append, List.nil_append, received]
    exact clockDecode_request suf
  | temperature ga t =>
    obtain ⟨hg, ht⟩ := hs
    unfold TempOk at ht
    cases hv : numValue t with
    | none => simp [hv] at ht
    | some q =>
      simp only [hv] at ht
      obtain ⟨g, k, e, h1, h2⟩ := temperature_encode ga t q hg hv ht.1 ht.2
      refine ⟨_, e, by simp, ?_⟩
      simp only [handlerOf, AppHandler.decodeSals, List.cons_append, List.nil_append,
        temperatureDecode_cons, h1, received, hv, Option.getD_some, floorQuarter, ← h2, pcons]
      rfl
  | enableSet v x =>
    refine ⟨_, rfl, by simp, ?_⟩
    simp only [handlerOf, AppHandler.decodeSals, List.cons_append, List.nil_append, enableDecode_cons,
      lowByte_toNat, received, pcons]
  | statusRequest l ga c =>
    obtain ⟨m1, m2⟩ := mask_e0 (lowByte ga)
    have m3 : (((lowByte ga &&& 0xe0).toNat : Nat) : Int) = ga % 256 / 32 * 32 := by
      rw [m2]; have := lowByte_toNat ga; omega
    cases l with
    | false =>
      refine ⟨[0x7a, lowByte c, lowByte ga &&& 0xe0], rfl, by simp, ?_⟩
      simp only [handlerOf, AppHandler.decodeSals, List.cons_append, List.nil_append]
      rw [statusDecode_binary _ _ _ m1, m3, lowByte_toNat]; rfl
    | true =>
      refine ⟨[0x73, 0x07, lowByte c, lowByte ga &&& 0xe0], rfl, by simp, ?_⟩
      simp only [handlerOf, AppHandler.decodeSals, List.cons_append, List.nil_append]
      rw [statusDecode_level _ _ _ m1, m3, lowByte_toNat]; rfl

/-- A sequence of well-formed SALs of one application, with anything behind. -/
theorem decodeSals_encodeSals (h : AppHandler) (sals : List SAL)
    (hs : ∀ s ∈ sals, SalOk s ∧ handlerOf s = h) (suf : Bytes) :
    ∃ b, encodeSals sals = .ok b ∧
      h.decodeSals (b ++ suf) = pappend (sals.map received) (h.decodeSals suf) := by
  induction sals with
  | nil => exact ⟨[], rfl, by cases h' : h.decodeSals suf <;> simp [pappend, h']⟩
  | cons s ss ih =>
    obtain ⟨r, h1, h2⟩ := ih (fun s hm => hs s (by simp [hm]))
    obtain ⟨ok, rfl⟩ := hs s (by simp)
    obtain ⟨b, e1, e2, e3⟩ := decodeSals_encode s ok (r ++ suf)
    refine ⟨b ++ r, by simp [encodeSals, e1, h1, bind, Except.bind, pure, Except.pure], ?_⟩
    rw [List.append_assoc, e3, h2, pcons_pappend]
    rfl

theorem decodeSals_nil (h : AppHandler) : h.decodeSals [] = .ok [] := by
  cases h <;> simp only [AppHandler.decodeSals]
  · rw [statusDecode]
  · rw [clockDecode]
  · rw [enableDecode]; simp
  · rw [lightingDecode]
  · rw [temperatureDecode]; simp

theorem received_application (s : SAL) : (received s).application = s.application := by
  cases s <;> try rfl
  rename_i v; cases v <;> rfl

end CBus
