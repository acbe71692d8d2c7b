import Verif.Spec.Writing
import Verif.Props.Sal
import Verif.Props.Report
import Verif.Props.Client

/-! # C99: the encoder writes what is prescribed, for every packet -/

namespace CBus.Props
open CBus Spec

/-- Byte values. -/
abbrev vals (r : Py Bytes) : Py (List Nat) := r.map (List.map UInt8.toNat)

theorem lowByte_low (i : Int) : (lowByte i).toNat = low i := by
  have := lowByte_toNat i
  unfold low
  omega

theorem mkByte_value {x : Int} (h : IsByte x) : ∃ b : UInt8, mkByte x = .ok b ∧ b.toNat = x.toNat := by
  obtain ⟨b, h1, h2⟩ := mkByte_isByte h
  exact ⟨b, h1, by omega⟩

theorem checkGa_not {ga : Int} (h : ¬ IsByte ga) : checkGa ga = .error .valueError := by
  rw [(C04_group_address ga).2.1]
  unfold IsByte at h
  omega

theorem rate_value {d q : Int} {k : Nat} (hq : IsQuantised d q) (hk : rampDurations[k]? = some q) :
    (durationToRampRate d).toNat = rampCode k := by
  have h1 := rampRateToDuration_durationToRampRate d
  rw [← quantise_unique d q hq] at h1
  have hk16 : k < 16 := by
    have := (List.getElem?_eq_some_iff.1 hk).1
    simpa [rampDurations] using this
  rcases C06_rate_table ((durationToRampRate d).toNat : Int) with ⟨k', hk', he, d', h2, h3, -⟩ | ⟨-, h⟩
  · rw [h1] at h3
    cases h3
    have inj : ∀ a b : Fin 16, rampDurations[a.val]? = rampDurations[b.val]? → a = b := by decide +kernel
    have := inj ⟨k, hk16⟩ ⟨k', hk'⟩ (by simp only; rw [hk, h2])
    simp at this
    subst this
    exact_mod_cast he
  · rw [h1] at h
    cases h

theorem rate_exists (d : Int) : ∃ (q : Int) (k : Nat), IsQuantised d q ∧ rampDurations[k]? = some q := by
  refine ⟨quantise d, ?_⟩
  obtain ⟨k, hk⟩ := List.getElem?_of_mem (quantise_spec d).1
  exact ⟨k, quantise_spec d, hk⟩

theorem levelOut_iff (l : PyNum) : (l.ltRat 0 || l.gtRat 255) = true ↔ LevelOut l := by
  cases l with
  | int i =>
    rw [level_check]
    unfold IsByte LevelOut
    simp
    omega
  | flt q => simp [PyNum.ltRat, PyNum.gtRat, LevelOut]
  | nan => simp [PyNum.ltRat, PyNum.gtRat, LevelOut]
  | inf b => cases b <;> simp [PyNum.ltRat, PyNum.gtRat, LevelOut]

theorem sal_sound {s : SAL} {r : Py (List Nat)} (h : SalWritten s r) : vals s.encode = r := by
  cases h with
  | on ga h =>
    obtain ⟨b, h1, h2⟩ := mkByte_value h
    simp [SAL.encode, checkGa_byte h, h1, bind, Except.bind, pure, Except.pure, vals, Except.map, h2, lcOn]
  | onRefused ga h => simp [SAL.encode, checkGa_not h, bind, Except.bind, vals, Except.map]
  | off ga h =>
    obtain ⟨b, h1, h2⟩ := mkByte_value h
    simp [SAL.encode, checkGa_byte h, h1, bind, Except.bind, pure, Except.pure, vals, Except.map, h2, lcOff]
  | offRefused ga h => simp [SAL.encode, checkGa_not h, bind, Except.bind, vals, Except.map]
  | terminate ga h =>
    obtain ⟨b, h1, h2⟩ := mkByte_value h
    simp [SAL.encode, checkGa_byte h, h1, bind, Except.bind, pure, Except.pure, vals, Except.map, h2, lcTerminate]
  | terminateRefused ga h => simp [SAL.encode, checkGa_not h, bind, Except.bind, vals, Except.map]
  | ramp ga d l q k h hl hq hk =>
    obtain ⟨b, h1, h2⟩ := mkByte_value h
    obtain ⟨c, h3, h4⟩ := mkByte_value hl
    have h0 : ((PyNum.int l).ltRat 0 || (PyNum.int l).gtRat 255) = false := by rw [level_check]; simp [hl]
    have h5 := rate_value hq hk
    simp [SAL.encode, h0, checkGa_byte h, h1, PyNum.toByte, h3, bind, Except.bind, pure, Except.pure, vals, Except.map,
      h2, h4, h5]
  | rampLevel ga d l h =>
    have h0 := (levelOut_iff l).2 h
    simp [SAL.encode, h0, bind, Except.bind, throw, throwThe, MonadExceptOf.throw, vals, Except.map]
  | rampGroup ga d l h =>
    cases h0 : (l.ltRat 0 || l.gtRat 255) <;>
      simp [SAL.encode, h0, checkGa_not h, bind, Except.bind, throw, throwThe, MonadExceptOf.throw, vals, Except.map, pure,
        Except.pure]
  | rampFloat ga d l h h1 h2 =>
    have h0 : (l.ltRat 0 || l.gtRat 255) = false := by
      cases h' : (l.ltRat 0 || l.gtRat 255) with
      | false => rfl
      | true => exact absurd ((levelOut_iff l).1 h') h1
    obtain ⟨b, h3, -⟩ := mkByte_value h
    have h4 : l.toByte = .error .typeError := by
      cases l with
      | int i => exact absurd rfl (h2 i)
      | _ => rfl
    simp [SAL.encode, h0, checkGa_byte h, h3, h4, bind, Except.bind, vals, Except.map, pure, Except.pure]
  | time t h =>
    obtain ⟨a, b, c, h1, h2, h3, h4⟩ := time_encode t h
    simp [h1, vals, Except.map, h2, h3, h4]
  | date d w h hw =>
    obtain ⟨a, b, c, e, f, h1, h2, h3, h4, h5⟩ := date_encode d h
    have hw' := (isWeekday_unique hw d.year rfl h.2.1).2
    have := b.toNat_lt
    simp [h1, vals, Except.map, h3, h4, h5, hw']
    omega
  | request => rfl
  | temperature ga t q h hv h0 h1 =>
    obtain ⟨g, k, h2, h3, h4⟩ := temperature_encode ga t q h hv h0 h1
    simp [h2, vals, Except.map]
    omega
  | temperatureRefused ga t h =>
    rw [C21_temperature_rejected ga t h]
    rfl
  | enable v x => simp [SAL.encode, vals, Except.map, lowByte_low]
  | binaryStatus ga c => simp [SAL.encode, vals, Except.map, lowByte_low, (mask_e0 _).2]
  | levelStatus ga c => simp [SAL.encode, vals, Except.map, lowByte_low, (mask_e0 _).2]

theorem sal_total (s : SAL) (h : Dated s) : ∃ r, SalWritten s r := by
  cases s with
  | lightOn ga =>
    by_cases hg : IsByte ga
    · exact ⟨_, .on ga hg⟩
    · exact ⟨_, .onRefused ga hg⟩
  | lightOff ga =>
    by_cases hg : IsByte ga
    · exact ⟨_, .off ga hg⟩
    · exact ⟨_, .offRefused ga hg⟩
  | lightTerminate ga =>
    by_cases hg : IsByte ga
    · exact ⟨_, .terminate ga hg⟩
    · exact ⟨_, .terminateRefused ga hg⟩
  | lightRamp ga d l =>
    by_cases hg : IsByte ga
    · by_cases ho : LevelOut l
      · exact ⟨_, .rampLevel ga d l ho⟩
      · cases l with
        | int i =>
          obtain ⟨q, k, hq, hk⟩ := rate_exists d
          exact ⟨_, .ramp ga d i q k hg (by unfold LevelOut at ho; unfold IsByte; omega) hq hk⟩
        | _ => exact ⟨_, .rampFloat ga d _ hg ho (by simp)⟩
    · exact ⟨_, .rampGroup ga d l hg⟩
  | clockUpdate v =>
    cases v with
    | date d => exact ⟨_, .date d _ h (isWeekday_weekday d h)⟩
    | time t => exact ⟨_, .time t h⟩
  | clockRequest => exact ⟨_, .request⟩
  | temperature ga t =>
    by_cases hg : IsByte ga ∧ TempOk t
    · obtain ⟨hg, ht⟩ := hg
      unfold TempOk at ht
      cases hv : numValue t with
      | none => rw [hv] at ht; exact ht.elim
      | some q => rw [hv] at ht; exact ⟨_, .temperature ga t q hg hv ht.1 ht.2⟩
    · exact ⟨_, .temperatureRefused ga t hg⟩
  | enableSet v x => exact ⟨_, .enable v x⟩
  | statusRequest l ga c =>
    cases l with
    | false => exact ⟨_, .binaryStatus ga c⟩
    | true => exact ⟨_, .levelStatus ga c⟩

/-- C99: SALs. -/
theorem C99_sal (s : SAL) (h : Dated s) (r : Py (List Nat)) : (s.encode).map (List.map UInt8.toNat) = r ↔ SalWritten s r := by
  constructor
  · rintro rfl
    obtain ⟨r, hr⟩ := sal_total s h
    rw [show (s.encode).map (List.map UInt8.toNat) = r from sal_sound hr]
    exact hr
  · exact sal_sound

theorem vals_ok {r : Py Bytes} {l : List Nat} (h : vals r = .ok l) : ∃ b, r = .ok b ∧ b.map UInt8.toNat = l := by
  cases r with
  | error e => simp [vals, Except.map] at h
  | ok b =>
    simp [vals, Except.map] at h
    exact ⟨b, rfl, h⟩

theorem vals_error {r : Py Bytes} {e : PyErr} (h : vals r = .error e) : r = .error e := by
  cases r with
  | error e' => simpa [vals, Except.map] using h
  | ok b => simp [vals, Except.map] at h

theorem sals_sound {sals : List SAL} {r : Py (List Nat)} (h : SalsWritten sals r) : vals (encodeSals sals) = r := by
  induction h with
  | nil => rfl
  | cons s sals b m h _ ih =>
    obtain ⟨b', h1, rfl⟩ := vals_ok (sal_sound h)
    obtain ⟨m', h2, rfl⟩ := vals_ok ih
    simp [encodeSals, h1, h2, bind, Except.bind, pure, Except.pure, vals, Except.map]
  | refused s sals e h => simp [encodeSals, vals_error (sal_sound h), bind, Except.bind, vals, Except.map]
  | later s sals b e h _ ih =>
    obtain ⟨b', h1, rfl⟩ := vals_ok (sal_sound h)
    simp [encodeSals, h1, vals_error ih, bind, Except.bind, vals, Except.map]

theorem sals_total (sals : List SAL) (h : ∀ s ∈ sals, Dated s) : ∃ r, SalsWritten sals r := by
  induction sals with
  | nil => exact ⟨_, .nil⟩
  | cons s sals ih =>
    obtain ⟨r, hr⟩ := sal_total s (h s List.mem_cons_self)
    obtain ⟨m, hm⟩ := ih fun t ht => h t (List.mem_cons_of_mem _ ht)
    cases r with
    | error e => exact ⟨_, .refused s sals e hr⟩
    | ok b =>
      cases m with
      | error e => exact ⟨_, .later s sals b e hr hm⟩
      | ok m => exact ⟨_, .cons s sals b m hr hm⟩

theorem states_sound {s : List GroupState} {l : List Nat} (h : StatesWritten s l) : vals (binaryEncode s) = .ok l := by
  have four : ∀ a b c d : GroupState, (a.code ||| b.code <<< 2 ||| c.code <<< 4 ||| d.code <<< 6).toNat =
      stateBits a + 4 * stateBits b + 16 * stateBits c + 64 * stateBits d := by
    intro a b c d
    cases a <;> cases b <;> cases c <;> cases d <;> rfl
  have pad : ∀ (a b c d : GroupState) (rest : List GroupState), binaryPad (a :: b :: c :: d :: rest) =
      a :: b :: c :: d :: binaryPad rest := by
    intro a b c d rest
    have : (a :: b :: c :: d :: rest).length % 4 = rest.length % 4 := by simp; omega
    simp only [binaryPad, this]
    split <;> simp
  induction h with
  | nil => rfl
  | one a => cases a <;> rfl
  | two a b => cases a <;> cases b <;> rfl
  | three a b c => cases a <;> cases b <;> cases c <;> rfl
  | four a b c d rest l _ ih =>
    obtain ⟨m, h1, rfl⟩ := vals_ok ih
    unfold binaryEncode at h1 ⊢
    simp [pad, binaryPack, h1, vals, Except.map, four]

theorem states_total : ∀ s : List GroupState, ∃ l, StatesWritten s l
  | [] => ⟨_, .nil⟩
  | [a] => ⟨_, .one a⟩
  | [a, b] => ⟨_, .two a b⟩
  | [a, b, c] => ⟨_, .three a b c⟩
  | a :: b :: c :: d :: rest => by
    obtain ⟨l, h⟩ := states_total rest
    exact ⟨_, .four a b c d rest l h⟩

theorem report_sound {p : Report} {l : List Nat} (h : ReportWritten p l) : vals p.encode = .ok l := by
  cases h with
  | binary s l h => exact states_sound h
  | level s =>
    have one : ∀ x : Option Int, (levelBytes x).map UInt8.toNat = levelValues x := by
      intro x
      cases x with
      | none => rfl
      | some v =>
        have hw : ∀ b : UInt8, (manchesterPair b).1.toNat = manchesterWord b.toNat % 256 ∧
            (manchesterPair b).2.toNat = manchesterWord b.toNat / 256 := by apply forall_byte; decide +kernel
        simp [levelBytes, levelValues, hw, lowByte_low]
    show vals (levelEncode s) = _
    rw [levelEncode_eq]
    simp only [vals, Except.map, Except.ok.injEq]
    induction s with
    | nil => rfl
    | cons x s ih => simp [one, ih]

theorem report_total (p : Report) : ∃ l, ReportWritten p l := by
  cases p with
  | binary s =>
    obtain ⟨l, h⟩ := states_total s
    exact ⟨l, .binary s l h⟩
  | level s => exact ⟨_, .level s⟩

/-- C99: status reports. -/
theorem C99_report (p : Report) (l : List Nat) : (p.encode).map (List.map UInt8.toNat) = .ok l ↔ ReportWritten p l := by
  constructor
  · intro h
    obtain ⟨m, hm⟩ := report_total p
    have := report_sound hm
    rw [show vals p.encode = .ok l from h] at this
    cases this
    exact hm
  · exact report_sound

theorem or_e0 {n : Nat} (h : n < 256) : 0xe0 ||| n = 0xe0 + n % 32 := by
  have : ∀ n : Fin 256, 0xe0 ||| n.val = 0xe0 + n.val % 32 := by decide +kernel
  exact this ⟨n, h⟩

theorem cal_sound {c : CAL} {r : Py (List Nat)} (h : CalWritten c r) : vals c.encode = r := by
  cases h with
  | identify a => simp [CAL.encode, vals, Except.map, lowByte_low]
  | recall p c => simp [CAL.encode, vals, Except.map, lowByte_low]
  | reply p d =>
    have : ∀ n : Fin 32, (UInt8.ofNat (0x80 ||| n.val)).toNat = 0x80 + n.val := by decide +kernel
    have : (UInt8.ofNat (0x80 ||| (min 30 d.length + 1))).toNat = 0x80 + (min 30 d.length + 1) :=
      this ⟨min 30 d.length + 1, by omega⟩
    simp only [CAL.encode, List.length_take, vals, Except.map, List.map_cons, lowByte_low]
    rw [this, Nat.min_comm]
  | status ext app blk p l h hl =>
    obtain ⟨b, h1, rfl⟩ := vals_ok (report_sound h)
    simp only [List.length_map] at hl
    have hb : IsByte ((0xe0 ||| (b.length + 3) : Nat) : Int) := by
      rw [or_e0 hl]
      unfold IsByte
      omega
    obtain ⟨x, h2, h3⟩ := mkByte_value hb
    have hc : (codingByte ext p).toNat = (if ext then 0x40 else 0) + reportType p := by
      cases ext <;> cases p <;> simp only [codingByte, Report.blockType, reportType] <;> decide +kernel
    rw [or_e0 hl] at h3
    simp [CAL.encode, h1, h2, h3, hc, bind, Except.bind, pure, Except.pure, vals, Except.map, lowByte_low]
    omega
  | statusRefused ext app blk p l h hl =>
    obtain ⟨b, h1, rfl⟩ := vals_ok (report_sound h)
    simp only [List.length_map] at hl
    have : 0xe0 ||| (b.length + 3) ≥ b.length + 3 := Nat.right_le_or
    have h2 : mkByte ((0xe0 ||| (b.length + 3) : Nat) : Int) = .error .valueError := by
      unfold mkByte
      rw [if_neg (by omega)]
    simp [CAL.encode, h1, h2, bind, Except.bind, vals, Except.map]

theorem cal_total (c : CAL) : ∃ r, CalWritten c r := by
  cases c with
  | identify a => exact ⟨_, .identify a⟩
  | recall p c => exact ⟨_, .recall p c⟩
  | reply p d => exact ⟨_, .reply p d⟩
  | extended ext app blk p =>
    obtain ⟨l, h⟩ := report_total p
    by_cases hl : l.length + 3 < 256
    · exact ⟨_, .status ext app blk p l h hl⟩
    · exact ⟨_, .statusRefused ext app blk p l h hl⟩

/-- C99: CALs. -/
theorem C99_cal (c : CAL) (r : Py (List Nat)) : (c.encode).map (List.map UInt8.toNat) = r ↔ CalWritten c r := by
  constructor
  · rintro rfl
    obtain ⟨r, hr⟩ := cal_total c
    rw [show (c.encode).map (List.map UInt8.toNat) = r from cal_sound hr]
    exact hr
  · exact cal_sound

theorem cals_sound {cals : List CAL} {r : Py (List Nat)} (h : CalsWritten cals r) : vals (encodeCals cals) = r := by
  induction h with
  | nil => rfl
  | cons s sals b m h _ ih =>
    obtain ⟨b', h1, rfl⟩ := vals_ok (cal_sound h)
    obtain ⟨m', h2, rfl⟩ := vals_ok ih
    simp [encodeCals, h1, h2, bind, Except.bind, pure, Except.pure, vals, Except.map]
  | refused s sals e h => simp [encodeCals, vals_error (cal_sound h), bind, Except.bind, vals, Except.map]
  | later s sals b e h _ ih =>
    obtain ⟨b', h1, rfl⟩ := vals_ok (cal_sound h)
    simp [encodeCals, h1, vals_error ih, bind, Except.bind, vals, Except.map]

theorem cals_total (cals : List CAL) : ∃ r, CalsWritten cals r := by
  induction cals with
  | nil => exact ⟨_, .nil⟩
  | cons s sals ih =>
    obtain ⟨r, hr⟩ := cal_total s
    obtain ⟨m, hm⟩ := ih
    cases r with
    | error e => exact ⟨_, .refused s sals e hr⟩
    | ok b =>
      cases m with
      | error e => exact ⟨_, .later s sals b e hr hm⟩
      | ok m => exact ⟨_, .cons s sals b m hr hm⟩

theorem header_values (dat : DAT) (dp : Bool) (prio : Prio) (src : Option Int) :
    (headerBytes dat dp prio src).map UInt8.toNat = headerValues dat.code.toNat dp prio src := by
  have : (flagsByte dat dp prio).toNat = dat.code.toNat + (if dp then 32 else 0) + 64 * prioNumber prio := by
    cases dat <;> cases dp <;> cases prio <;> decide +kernel
  cases src <;> simp [headerBytes, headerValues, this, lowByte_low]

theorem summed_sound {cs : Bool} {b : Bytes} {m : List Nat} (h : Summed cs (b.map UInt8.toNat) m) :
    ((if cs then addChecksum b else b)).map UInt8.toNat = m := by
  generalize hb : b.map UInt8.toNat = l at h
  cases h with
  | plain => simp [hb]
  | sum _ c hc h =>
    have h1 := cbusChecksum_toNat b
    have h2 : sumBytes b = l.sum := by rw [← hb]; exact sumBytes_eq_sum b
    have : (cbusChecksum b).toNat = c := by rw [h1, h2]; omega
    simp [addChecksum, hb, this]

theorem summed_total (cs : Bool) (l : List Nat) : ∃ m, Summed cs l m := by
  cases cs with
  | false => exact ⟨_, .plain l⟩
  | true => exact ⟨_, .sum l ((256 - l.sum % 256) % 256) (by omega) (by omega)⟩

/-- The bytes of an ordinary packet. -/
def messageBytes : Packet → Py Bytes
  | .pm p => p.encode
  | .pp p => p.encode
  | .dm p => .ok p.encode
  | _ => .error .attributeError

theorem message_sound {p : Packet} {r : Py (List Nat)} (h : MessageWritten p r) : vals (messageBytes p) = r := by
  cases h with
  | pm p a o m ha hb ho hm =>
    obtain ⟨b, h1, rfl⟩ := vals_ok (sals_sound ho)
    obtain ⟨x, h2, h3⟩ := mkByte_value hb
    unfold IsByte at hb
    have hr : ¬ (a < 0 ∨ a > 0xff) := by omega
    have := summed_sound (b := headerBytes .pm false p.prio p.src ++ (x :: 0 :: b)) (cs := p.checksum) (m := m)
      (by simpa [header_values, h3, DAT.code] using hm)
    simp [messageBytes, PM.encode, ha, hr, h1, h2, bind, Except.bind, pure, Except.pure, vals, Except.map, this]
  | pmNoApplication p ha => simp [messageBytes, PM.encode, ha, vals, Except.map]
  | pmApplication p a ha hb =>
    unfold IsByte at hb
    have hr : a < 0 ∨ a > 0xff := by omega
    simp [messageBytes, PM.encode, ha, hr, bind, Except.bind, vals, Except.map, throw, throwThe, MonadExceptOf.throw]
  | pmRefused p a e ha hb ho =>
    have h1 := vals_error (sals_sound ho)
    obtain ⟨x, h2, h3⟩ := mkByte_value hb
    unfold IsByte at hb
    have hr : ¬ (a < 0 ∨ a > 0xff) := by omega
    simp [messageBytes, PM.encode, ha, hr, h1, h2, bind, Except.bind, pure, Except.pure, vals, Except.map]
  | pp p o m hb hu ho hm =>
    obtain ⟨b, h1, rfl⟩ := vals_ok (cals_sound ho)
    obtain ⟨x, h2, h3⟩ := mkByte_value hu
    have := summed_sound (b := headerBytes .pp false p.prio p.src ++ (x :: 0 :: b)) (cs := p.checksum) (m := m)
      (by simpa [header_values, h3, DAT.code] using hm)
    simp [messageBytes, PP.encode, hb, h1, h2, bind, Except.bind, pure, Except.pure, vals, Except.map, this]
  | ppBridged p hb =>
    simp [messageBytes, PP.encode, hb, bind, Except.bind, vals, Except.map, throw, throwThe, MonadExceptOf.throw]
  | ppUnit p hb hu =>
    have : mkByte p.unit = .error .valueError := by
      unfold mkByte IsByte at *
      rw [if_neg (by omega)]
    simp [messageBytes, PP.encode, hb, this, bind, Except.bind, pure, Except.pure, vals, Except.map]
  | ppRefused p e hb hu ho =>
    have h1 := vals_error (cals_sound ho)
    obtain ⟨x, h2, h3⟩ := mkByte_value hu
    simp [messageBytes, PP.encode, hb, h1, h2, bind, Except.bind, pure, Except.pure, vals, Except.map]
  | dm p m hm =>
    have := summed_sound (b := headerBytes .ppm true p.prio p.src ++ [lowByte p.parameter, 0, lowByte p.value])
      (cs := p.checksum) (m := m) (by simpa [header_values, lowByte_low, DAT.code] using hm)
    simp [messageBytes, DM.encode, vals, Except.map, this]

theorem digits_eq (b : Bytes) : digits (b.map UInt8.toNat) = b16encode b := by
  have hd : ∀ n, digit n = hexDigit n := by
    intro n
    unfold digit hexDigit
    split
    · rfl
    · congr 1; omega
  induction b with
  | nil => rfl
  | cons x b ih => simpa [digits, b16encode, hd] using ih

theorem packet_sound {p : Packet} {r : Py Bytes} (h : PacketWritten p r) : p.encodePacket = r := by
  cases h with
  | powerOn => decide +kernel
  | error => decide +kernel
  | confirmed c => simp [Packet.encodePacket]; decide +kernel
  | notConfirmed c => simp [Packet.encodePacket]; decide +kernel
  | reset => decide +kernel
  | connect => decide +kernel
  | invalid b e => rfl
  | cal c => rfl
  | message _ r h =>
    have h0 : p.encodePacket = (messageBytes p).map b16encode := by
      cases h <;> simp only [Packet.encodePacket, messageBytes, bind, Except.bind, pure, Except.pure, Except.map] <;>
        first | rfl | (split <;> rfl)
    have h1 := message_sound h
    rw [h0]
    cases hm : messageBytes p with
    | error e =>
      rw [hm] at h1
      subst h1
      rfl
    | ok b =>
      rw [hm] at h1
      subst h1
      simp [vals, Except.map, digits_eq]

/-- Dates and times in a packet are as Python has them. -/
def PacketDated : Packet → Prop
  | .pm p => ∀ s ∈ p.sals, Dated s
  | _ => True

theorem packet_total (p : Packet) (h : PacketDated p) : ∃ r, PacketWritten p r := by
  cases p with
  | powerOn => exact ⟨_, .powerOn⟩
  | pciError => exact ⟨_, .error⟩
  | confirmation c s =>
    cases s with
    | true => exact ⟨_, .confirmed c⟩
    | false => exact ⟨_, .notConfirmed c⟩
  | reset => exact ⟨_, .reset⟩
  | smartConnect => exact ⟨_, .connect⟩
  | invalid b e => exact ⟨_, .invalid b e⟩
  | cal c => exact ⟨_, .cal c⟩
  | dm p =>
    obtain ⟨m, hm⟩ := summed_total p.checksum (headerValues 3 true p.prio p.src ++ [low p.parameter, 0, low p.value])
    exact ⟨_, .message _ _ (.dm p m hm)⟩
  | pp p =>
    cases hb : p.bridged with
    | true => exact ⟨_, .message _ _ (.ppBridged p hb)⟩
    | false =>
      by_cases hu : IsByte p.unit
      · obtain ⟨r, hr⟩ := cals_total p.cals
        cases r with
        | error e => exact ⟨_, .message _ _ (.ppRefused p e hb hu hr)⟩
        | ok o =>
          obtain ⟨m, hm⟩ := summed_total p.checksum (headerValues 6 false p.prio p.src ++ p.unit.toNat :: 0 :: o)
          exact ⟨_, .message _ _ (.pp p o m hb hu hr hm)⟩
      · exact ⟨_, .message _ _ (.ppUnit p hb hu)⟩
  | pm p =>
    cases ha : p.app with
    | none => exact ⟨_, .message _ _ (.pmNoApplication p ha)⟩
    | some a =>
      by_cases hb : IsByte a
      · obtain ⟨r, hr⟩ := sals_total p.sals h
        cases r with
        | error e => exact ⟨_, .message _ _ (.pmRefused p a e ha hb hr)⟩
        | ok o =>
          obtain ⟨m, hm⟩ := summed_total p.checksum (headerValues 5 false p.prio p.src ++ a.toNat :: 0 :: o)
          exact ⟨_, .message _ _ (.pm p a o m ha hb hr hm)⟩
      · exact ⟨_, .message _ _ (.pmApplication p a ha hb)⟩

/-- C99: every packet. -/
theorem C99_packet (p : Packet) (h : PacketDated p) (r : Py Bytes) : p.encodePacket = r ↔ PacketWritten p r := by
  constructor
  · rintro rfl
    obtain ⟨r, hr⟩ := packet_total p h
    rw [packet_sound hr]
    exact hr
  · exact packet_sound

/-- A ramp, and two packets that are refused: a group that is no byte behind one that is,
and a level that is no integer. -/
example :
    PacketWritten (.pm { app := some 0x38, sals := [.lightRamp 8 13 (.int 127)] }) (.ok (ascii "05380022087F1A")) ∧
    PacketWritten (.pm { app := some 0x38, sals := [.lightOn 8, .lightOn 256] }) (.error .valueError) ∧
    PacketWritten (.pm { app := some 0x38, sals := [.lightRamp 8 0 (.flt (1 / 2))] }) (.error .typeError) ∧
    PacketWritten (.pp { unit := 4, cals := [.recall 0x21 300] }) (.ok (ascii "0604001A212C8F")) := by
  refine ⟨(C99_packet _ ?_ _).1 ?_, (C99_packet _ ?_ _).1 ?_, (C99_packet _ ?_ _).1 ?_, (C99_packet _ ?_ _).1 ?_⟩
  all_goals first | decide +kernel | simp [PacketDated, Dated]

end CBus.Props
