import Verif.Lemmas.Sal
import Verif.Lemmas.Calendar

/-! # C16-C23: application messages -/

namespace CBus.Props
open CBus CBus.Spec

/-- The lighting commands. -/
def IsLighting : SAL → Prop
  | .lightOn _ | .lightOff _ | .lightTerminate _ | .lightRamp _ _ _ => True
  | _ => False

instance (s : SAL) : Decidable (IsLighting s) := by
  cases s <;> (unfold IsLighting; infer_instance)

theorem handlerOf_lighting {s : SAL} (h : IsLighting s) : handlerOf s = .lighting := by
  cases s <;> first | rfl | exact h.elim

/-! ## C16, C17 -/

/-- C16: well-formed lighting commands, encoded back to back, decode to exactly
those commands, ramps with the supported duration. -/
theorem C16_lighting_sequence (sals : List SAL) (h : ∀ s ∈ sals, IsLighting s ∧ SalOk s) :
    ∃ b, encodeSals sals = .ok b ∧ lightingDecode b = .ok (sals.map received) := by
  obtain ⟨b, h1, h2⟩ := decodeSals_encodeSals .lighting sals
    (fun s hs => ⟨(h s hs).2, handlerOf_lighting (h s hs).1⟩) []
  refine ⟨b, h1, ?_⟩
  rw [decodeSals_nil] at h2
  simpa [AppHandler.decodeSals, pappend] using h2

example : encodeSals [.lightOn 1, .lightRamp 2 5 (.int 128), .lightOff 3, .lightTerminate 255] =
      .ok [0x79, 1, 0x12, 2, 128, 0x01, 3, 0x09, 255] ∧
    lightingDecode [0x79, 1, 0x12, 2, 128, 0x01, 3, 0x09, 255] =
      .ok [.lightOn 1, .lightRamp 2 8 (.int 128), .lightOff 3, .lightTerminate 255] := by
  decide +kernel

/-- C17: lighting decoding never raises. -/
theorem C17_lighting_total (d : Bytes) : ∃ l, lightingDecode d = .ok l :=
  lightingDecode_total d.length d (Nat.le_refl _)

/-- C17: whatever follows well-formed commands, those commands are returned
first, unchanged, followed by what would be decoded from the rest alone. -/
theorem C17_lighting_suffix (sals : List SAL) (h : ∀ s ∈ sals, IsLighting s ∧ SalOk s)
    (junk : Bytes) :
    ∃ b l, encodeSals sals = .ok b ∧ lightingDecode junk = .ok l ∧
      lightingDecode (b ++ junk) = .ok (sals.map received ++ l) := by
  obtain ⟨b, h1, h2⟩ := decodeSals_encodeSals .lighting sals
    (fun s hs => ⟨(h s hs).2, handlerOf_lighting (h s hs).1⟩) junk
  obtain ⟨l, hl⟩ := C17_lighting_total junk
  refine ⟨b, l, h1, hl, ?_⟩
  simp only [AppHandler.decodeSals, hl, pappend] at h2
  exact h2

example : lightingDecode [0x79, 1, 0xff, 0xff, 0x79] = .ok [.lightOn 1] := by decide +kernel

/-- C17: what is decoded is always made of well-formed commands. -/
theorem C17_lighting_sound : ∀ (n : Nat) (d : Bytes), d.length ≤ n → ∀ l, lightingDecode d = .ok l →
    ∀ s ∈ l, IsLighting s ∧ SalOk s := by
  have bb : ∀ b : UInt8, IsByte b.toNat := fun b => ⟨by omega, by have := b.toNat_lt; omega⟩
  intro n
  induction n with
  | zero =>
    intro d hd l hl
    simp at hd; subst hd
    rw [lightingDecode] at hl; injection hl with hl; subst hl; simp
  | succ n ih =>
    intro d hd l hl
    match d, hd, hl with
    | [], _, hl => rw [lightingDecode] at hl; injection hl with hl; subst hl; simp
    | [_], _, hl => rw [lightingDecode] at hl; injection hl with hl; subst hl; simp
    | cmd :: ga :: rest, hd, hl =>
      have hr : rest.length ≤ n := by simp at hd; omega
      obtain ⟨l', hl'⟩ := C17_lighting_total rest
      have ih' := ih rest hr l' hl'
      rw [lightingDecode] at hl
      split at hl
      · injection hl with hl; subst hl; simp
      · simp only [mkLightOn, checkGa_uint8, bind, Except.bind, pure, Except.pure, hl'] at hl
        injection hl with hl; subst hl
        intro s hs; rcases List.mem_cons.1 hs with rfl | hs
        · exact ⟨trivial, bb ga⟩
        · exact ih' s hs
      · simp only [mkLightOff, checkGa_uint8, bind, Except.bind, pure, Except.pure, hl'] at hl
        injection hl with hl; subst hl
        intro s hs; rcases List.mem_cons.1 hs with rfl | hs
        · exact ⟨trivial, bb ga⟩
        · exact ih' s hs
      · simp only [mkLightTerminate, checkGa_uint8, bind, Except.bind, pure, Except.pure, hl'] at hl
        injection hl with hl; subst hl
        intro s hs; rcases List.mem_cons.1 hs with rfl | hs
        · exact ⟨trivial, bb ga⟩
        · exact ih' s hs
      · split at hl
        · cases hl
        · match rest, hr, hl with
          | [], _, hl => injection hl with hl; subst hl; simp
          | lv :: rest', hr, hl =>
            obtain ⟨l2, hl2⟩ := C17_lighting_total rest'
            have ih2 := ih rest' (by simp at hr; omega) l2 hl2
            simp only [mkLightRamp, checkGa_uint8, bind, Except.bind, pure, Except.pure, hl2] at hl
            injection hl with hl; subst hl
            intro s hs; rcases List.mem_cons.1 hs with rfl | hs
            · exact ⟨trivial, bb ga, bb lv⟩
            · exact ih2 s hs

/-! ## C18 -/

/-- The clock SALs. -/
def IsClock : SAL → Prop
  | .clockUpdate _ | .clockRequest => True
  | _ => False

instance (s : SAL) : Decidable (IsClock s) := by
  cases s <;> (unfold IsClock; infer_instance)

theorem handlerOf_clock {s : SAL} (h : IsClock s) : handlerOf s = .clock := by
  cases s <;> first | rfl | exact h.elim

/-- C18: any sequence of clock SALs decodes to that sequence (times lose their
microseconds). -/
theorem C18_clock_sequence (sals : List SAL) (h : ∀ s ∈ sals, IsClock s ∧ SalOk s) :
    ∃ b, encodeSals sals = .ok b ∧ clockDecode b = .ok (sals.map received) := by
  obtain ⟨b, h1, h2⟩ := decodeSals_encodeSals .clock sals
    (fun s hs => ⟨(h s hs).2, handlerOf_clock (h s hs).1⟩) []
  refine ⟨b, h1, ?_⟩
  rw [decodeSals_nil] at h2
  simpa [AppHandler.decodeSals, pappend] using h2

/-- C18 for the pair of SALs that represents one date and time. -/
theorem C18_datetime (dt : PyDateTime) (hd : dt.date.Valid) (ht : dt.time.Valid) :
    ∃ b, encodeSals (clockUpdateSal dt) = .ok b ∧
      clockDecode b = .ok [.clockUpdate (.date dt.date),
        .clockUpdate (.time ⟨dt.time.hour, dt.time.minute, dt.time.second, 0⟩)] :=
  C18_clock_sequence (clockUpdateSal dt) (by
    intro s hs
    simp only [clockUpdateSal, List.mem_cons, List.not_mem_nil, or_false] at hs
    rcases hs with rfl | rfl
    · exact ⟨trivial, hd⟩
    · exact ⟨trivial, ht⟩)

example : PyDate.Valid ⟨2024, 2, 29⟩ ∧ PyTime.Valid ⟨23, 59, 58, 123456⟩ ∧
    encodeSals (clockUpdateSal ⟨⟨2024, 2, 29⟩, ⟨23, 59, 58, 123456⟩⟩) =
      .ok [0x0e, 0x02, 0x07, 0xe8, 2, 29, 3, 0x0d, 0x01, 23, 59, 58, 255] := by decide +kernel

/-- What arrives of a time: a whole second. -/
def wholeSecond (t : PyTime) : PyTime := ⟨t.hour, t.minute, t.second, 0⟩

/-- C18 for whatever is given to `clock_update_sal`: a date arrives as that date, a
time as its whole second, a date and time as both, and each message knows which of the
two it is; anything else raises `TypeError`. -/
theorem C18_update (d : PyDate) (t : PyTime) (hd : d.Valid) (ht : t.Valid) :
    (∃ l b, clockUpdateSalOf (.date d) = .ok l ∧ encodeSals l = .ok b ∧ clockDecode b = .ok [.clockUpdate (.date d)]) ∧
    (∃ l b, clockUpdateSalOf (.time t) = .ok l ∧ encodeSals l = .ok b ∧
      clockDecode b = .ok [.clockUpdate (.time (wholeSecond t))]) ∧
    (∃ l b, clockUpdateSalOf (.datetime ⟨d, t⟩) = .ok l ∧ encodeSals l = .ok b ∧
      clockDecode b = .ok [.clockUpdate (.date d), .clockUpdate (.time (wholeSecond t))]) ∧
    clockUpdateSalOf .other = .error .typeError := by
  refine ⟨?_, ?_, ?_, rfl⟩
  · obtain ⟨b, h1, h2⟩ := C18_clock_sequence [.clockUpdate (.date d)] (by
      intro s hs; rcases List.mem_singleton.1 hs with rfl; exact ⟨trivial, hd⟩)
    exact ⟨_, b, rfl, h1, h2⟩
  · obtain ⟨b, h1, h2⟩ := C18_clock_sequence [.clockUpdate (.time t)] (by
      intro s hs; rcases List.mem_singleton.1 hs with rfl; exact ⟨trivial, ht⟩)
    exact ⟨_, b, rfl, h1, h2⟩
  · obtain ⟨b, h1, h2⟩ := C18_datetime ⟨d, t⟩ hd ht
    exact ⟨_, b, rfl, h1, h2⟩

/-- C18: a clock message is of a date or of a time, never both. -/
theorem C18_kind (d : PyDate) (t : PyTime) :
    (ClockVal.date d).isDate = true ∧ (ClockVal.date d).isTime = false ∧
    (ClockVal.time t).isDate = false ∧ (ClockVal.time t).isTime = true := ⟨rfl, rfl, rfl, rfl⟩

/-! ## C19 -/

/-- C19: the weekday byte transmitted with any valid date is its calendar day of
the week. -/
theorem C19_weekday (d : PyDate) (hv : d.Valid) :
    ∃ yh yl m dd w : UInt8, (SAL.clockUpdate (.date d)).encode = .ok [0x0e, 0x02, yh, yl, m, dd, w] ∧
      yh.toNat * 256 + yl.toNat = d.year ∧ m.toNat = d.month ∧ dd.toNat = d.day ∧
      IsWeekday d w.toNat ∧ w.toNat < 7 := by
  obtain ⟨yh, yl, m, dd, w, h1, h2, h3, h4, h5⟩ := date_encode d hv
  refine ⟨yh, yl, m, dd, w, h1, h2, h3, h4, ?_, ?_⟩
  · rw [h5]; exact isWeekday_weekday d hv
  · rw [h5]; unfold PyDate.weekday; omega

/-- The specification determines the weekday: no date has two. -/
theorem isWeekday_unique {d : PyDate} {w : Nat} (h : IsWeekday d w) (y : Nat) (hy : d.year = y)
    (hb : y ≤ 9999) : d.Valid ∧ w = d.weekday := by
  induction h generalizing y with
  | first => exact ⟨by decide, rfl⟩
  | @next p w hp ih =>
    have hpy : p.year ≤ 9999 ∧ p.year ≤ (nextDay p).year := by
      unfold nextDay at hy ⊢
      split
      · simp_all
      · split
        · simp_all
        · simp_all; omega
    obtain ⟨hv, hw⟩ := ih p.year rfl hpy.1
    have ho := toOrdinal_nextDay p hv
    refine ⟨?_, by rw [hw]; unfold PyDate.weekday; rw [ho]; omega⟩
    obtain ⟨h1, h2, h3, h4, h5, h6⟩ := hv
    have e := daysInMonth_eq p.year p.month h3 h4
    unfold nextDay at hy ⊢
    split
    · exact ⟨h1, h2, h3, h4, by simp, by simp; omega⟩
    · split
      · refine ⟨h1, h2, by simp, by simp; omega, by simp, ?_⟩
        simp only
        unfold daysInMonth; repeat' split
        all_goals omega
      · rename_i a b
        rw [if_neg a, if_neg b] at hy
        simp only at hy
        refine ⟨by simp, by simp; omega, by simp, by simp, by simp, ?_⟩
        simp [daysInMonth]

example : (SAL.clockUpdate (.date ⟨2000, 1, 1⟩)).encode = .ok [0x0e, 0x02, 0x07, 0xd0, 1, 1, 5] := by
  decide +kernel

/-! ## C20 -/

/-- C20 is false of the code: the clock request after an update of an unknown
variable is lost, although the same request alone is decoded. -/
theorem C20_false :
    clockDecode [0x0a, 0x05, 0x00, 0x11, 0x03] = .ok [] ∧
    clockDecode [0x11, 0x03] = .ok [.clockRequest] := by
  constructor
  · rw [clockDecode_update 0x0a [0x05, 0x00, 0x11, 0x03] (none, []) (by decide) (by decide +kernel)]
    rw [show clockDecode [] = .ok [] by rw [clockDecode]]
    rfl
  · rw [clockDecode_request, show clockDecode [] = .ok [] by rw [clockDecode]]
    rfl

/-- C20, what does happen (what is missing: the unit should be skipped once,
`n` bytes, but twice that is skipped). An update whose length field is `n` and
whose variable is unknown never raises and skips `2 * n` bytes after its command
byte; clock SALs before it are unaffected, and if nothing follows it nothing is
lost. -/
theorem C20_unknown_variable_partial (sals : List SAL) (h : ∀ s ∈ sals, IsClock s ∧ SalOk s)
    (cmd : UInt8) (hc : cmd.toNat / 8 = 1) (var : UInt8) (h1 : var ≠ 1) (h2 : var ≠ 2)
    (rest : Bytes) :
    ∃ b, encodeSals sals = .ok b ∧
      clockDecode (b ++ cmd :: var :: rest) =
        pappend (sals.map received) (clockDecode ((var :: rest).drop (2 * (cmd.toNat % 8)))) ∧
      (rest.length < 2 * (cmd.toNat % 8) →
        clockDecode (b ++ cmd :: var :: rest) = .ok (sals.map received)) := by
  obtain ⟨b, e1, e2⟩ := decodeSals_encodeSals .clock sals
    (fun s hs => ⟨(h s hs).2, handlerOf_clock (h s hs).1⟩) (cmd :: var :: rest)
  have key : ∀ c : UInt8, c.toNat / 8 = 1 → c &&& 0xf8 = 0x08 ∧ (c &&& 7).toNat = c.toNat % 8 := by
    apply forall_byte; decide +kernel
  obtain ⟨k1, k2⟩ := key cmd hc
  have hd : clockUpdateDecode (var :: rest) cmd =
      .ok (none, (var :: rest).drop (2 * (cmd.toNat % 8))) := by
    simp only [clockUpdateDecode, byteAt, List.getElem?_cons_zero, bind, Except.bind, k2, h1, h2,
      if_false, pure, Except.pure, List.drop_drop]
    congr 3; omega
  have main : clockDecode (cmd :: var :: rest) = clockDecode ((var :: rest).drop (2 * (cmd.toNat % 8))) := by
    rw [clockDecode_update cmd _ _ k1 hd]
    simp only [consOpt]
    cases clockDecode ((var :: rest).drop (2 * (cmd.toNat % 8))) <;> rfl
  simp only [AppHandler.decodeSals] at e2
  rw [main] at e2
  refine ⟨b, e1, e2, ?_⟩
  intro hl
  rw [e2, List.drop_of_length_le (by simp; omega)]
  rw [show clockDecode [] = .ok [] by rw [clockDecode]]
  simp [pappend]

example : (0x0a : UInt8).toNat / 8 = 1 ∧ (0x0a : UInt8).toNat % 8 = 2 ∧ (5 : UInt8) ≠ 1 ∧
    (5 : UInt8) ≠ 2 := by decide

/-! ## C21 -/

/-- C21: a temperature in range is sent as the largest number of quarter degrees
not above it. -/
theorem C21_temperature (ga : Int) (t : PyNum) (q : Rat) (hg : IsByte ga)
    (hv : numValue t = some q) (h0 : 0 ≤ q) (h1 : q ≤ 255 / 4) :
    ∃ b r, (SAL.temperature ga t).encode = .ok b ∧
      temperatureDecode b = [.temperature ga (.flt r)] ∧
      r ≤ q ∧ q < r + 1 / 4 ∧ (∃ k : Int, r = (k : Rat) / 4) ∧
      ((∃ k : Int, q = (k : Rat) / 4) → r = q) := by
  obtain ⟨g, k, e, e1, e2⟩ := temperature_encode ga t q hg hv h0 h1
  have hk : ((k.toNat : Nat) : Rat) = (((q * 4).floor : Int) : Rat) := by rw [← e2]; rfl
  have f1 : (((q * 4).floor : Int) : Rat) ≤ q * 4 := Rat.le_floor_iff.1 (Int.le_refl _)
  have f2 : q * 4 < (((q * 4).floor + 1 : Int) : Rat) := Rat.floor_lt_iff.1 (by omega)
  rw [Rat.intCast_add, Rat.intCast_one] at f2
  refine ⟨_, (k.toNat : Rat) / 4, e, ?_, ?_, ?_, ⟨(q * 4).floor, by rw [hk]⟩, ?_⟩
  · rw [temperatureDecode_cons, e1]; simp [temperatureDecode]
  · rw [hk]; grind
  · rw [hk]; grind
  · rintro ⟨j, hj⟩
    have : q * 4 = ((j : Int) : Rat) := by rw [hj]; grind
    rw [hk, this, Rat.floor_intCast, hj]

/-- C21: everything else is rejected with `ValueError`. -/
theorem C21_temperature_rejected (ga : Int) (t : PyNum) (h : ¬ (IsByte ga ∧ TempOk t)) :
    (SAL.temperature ga t).encode = .error .valueError := by
  by_cases ht : TempOk t
  · have hg : ¬ IsByte ga := fun hg => h ⟨hg, ht⟩
    have hc : checkGa ga = .error .valueError := by
      have := (C04_group_address ga).2.1
      rw [this]; unfold IsByte at hg; omega
    have : (t.geRat 0 && t.leRat (255 / 4)) = true := by
      unfold TempOk at ht
      cases t <;> simp_all [numValue, PyNum.geRat, PyNum.leRat]
    simp [SAL.encode, this, hc, bind, Except.bind]
  · have : (t.geRat 0 && t.leRat (255 / 4)) = false := by
      unfold TempOk at ht
      cases t with
      | int i => simp only [numValue, not_and] at ht; simp [PyNum.geRat, PyNum.leRat]; exact ht
      | flt i => simp only [numValue, not_and] at ht; simp [PyNum.geRat, PyNum.leRat]; exact ht
      | nan => rfl
      | inf b => cases b <;> rfl
    simp [SAL.encode, this, bind, Except.bind, throw, throwThe, MonadExceptOf.throw]

/-- C21: any sequence of temperature broadcasts. -/
theorem C21_temperature_sequence (l : List (Int × PyNum)) (h : ∀ p ∈ l, IsByte p.1 ∧ TempOk p.2) :
    ∃ b, encodeSals (l.map fun p => .temperature p.1 p.2) = .ok b ∧
      temperatureDecode b =
        l.map fun p => .temperature p.1 (.flt (floorQuarter ((numValue p.2).getD 0))) := by
  obtain ⟨b, h1, h2⟩ := decodeSals_encodeSals .temperature (l.map fun p => .temperature p.1 p.2)
    (by
      intro s hs
      obtain ⟨p, hp, rfl⟩ := List.mem_map.1 hs
      exact ⟨h p hp, rfl⟩) []
  refine ⟨b, h1, ?_⟩
  rw [decodeSals_nil] at h2
  simp only [AppHandler.decodeSals, pappend, List.append_nil, Except.ok.injEq, List.map_map] at h2
  rw [h2]; rfl

example : (SAL.temperature 10 (.flt (103 / 5))).encode = .ok [0x02, 10, 82] ∧
    temperatureDecode [0x02, 10, 82] = [.temperature 10 (.flt (41 / 2))] ∧
    (SAL.temperature 10 (.flt 64)).encode = .error .valueError ∧
    (SAL.temperature 10 .nan).encode = .error .valueError := by decide +kernel

/-! ## C22, C23 -/

/-- C22: enable-control variables. -/
theorem C22_enable_sequence (l : List (Int × Int)) :
    ∃ b, encodeSals (l.map fun p => .enableSet p.1 p.2) = .ok b ∧
      enableDecode b = l.map fun p => .enableSet (p.1 % 256) (p.2 % 256) := by
  obtain ⟨b, h1, h2⟩ := decodeSals_encodeSals .enable (l.map fun p => .enableSet p.1 p.2)
    (by
      intro s hs
      obtain ⟨p, hp, rfl⟩ := List.mem_map.1 hs
      exact ⟨trivial, rfl⟩) []
  refine ⟨b, h1, ?_⟩
  rw [decodeSals_nil] at h2
  simp only [AppHandler.decodeSals, pappend, List.append_nil, Except.ok.injEq, List.map_map] at h2
  rw [h2]; rfl

example : encodeSals [.enableSet 0x37 0x82, .enableSet 300 (-1)] = .ok [2, 0x37, 0x82, 2, 44, 255] ∧
    enableDecode [2, 0x37, 0x82, 2, 44, 255] = [.enableSet 0x37 0x82, .enableSet 44 255] := by
  decide +kernel

/-- C23: status requests. -/
theorem C23_status_sequence (l : List (Bool × Int × Int)) :
    ∃ b, encodeSals (l.map fun p => .statusRequest p.1 p.2.1 p.2.2) = .ok b ∧
      statusDecode b =
        .ok (l.map fun p => .statusRequest p.1 (p.2.1 % 256 / 32 * 32) (p.2.2 % 256)) := by
  obtain ⟨b, h1, h2⟩ := decodeSals_encodeSals .statusRequest
    (l.map fun p => .statusRequest p.1 p.2.1 p.2.2)
    (by
      intro s hs
      obtain ⟨p, hp, rfl⟩ := List.mem_map.1 hs
      exact ⟨trivial, rfl⟩) []
  refine ⟨b, h1, ?_⟩
  rw [decodeSals_nil] at h2
  simp only [AppHandler.decodeSals, pappend, List.append_nil, List.map_map] at h2
  rw [h2]; rfl

example : encodeSals [.statusRequest true 40 0x38, .statusRequest false 0 0xff] =
      .ok [0x73, 0x07, 0x38, 0x20, 0x7a, 0xff, 0] ∧
    statusDecode [0x73, 0x07, 0x38, 0x20, 0x7a, 0xff, 0] =
      .ok [.statusRequest true 32 0x38, .statusRequest false 0 0xff] := by decide +kernel

end CBus.Props
