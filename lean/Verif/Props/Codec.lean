import Verif.Model.Packet
import Verif.Lemmas.Basic
import Verif.Spec.Codec

/-! # C01-C06: checksums, base16 and ramp rates -/

namespace CBus.Props
open CBus CBus.Spec

/-! ## C01 -/

/-- C01: an appended checksum validates, is one extra byte, and makes the bytes
sum to zero. -/
theorem C01_checksum_valid (m : Bytes) :
    validateChecksum (addChecksum m) = .ok true ∧
    (∃ c, addChecksum m = m ++ [c]) ∧ SumsToZero (addChecksum m) := by
  refine ⟨validateChecksum_addChecksum m, ⟨_, rfl⟩, ?_⟩
  unfold SumsToZero
  rw [← sumBytes_eq_sum]; exact addChecksum_sum m

/-- `validate_cbus_checksum` is exactly the sum-to-zero test on non-empty
messages. -/
theorem C01_validate_iff (m : Bytes) (h : m ≠ []) (b : Bool) :
    validateChecksum m = .ok b ↔ (b = true ↔ SumsToZero m) := by
  rw [validateChecksum_eq h]
  unfold SumsToZero
  rw [← sumBytes_eq_sum]
  cases b <;> simp

/-- The checksum byte is the only one that validates. -/
theorem C01_checksum_unique (m : Bytes) (c : UInt8) (h : validateChecksum (m ++ [c]) = .ok true) :
    m ++ [c] = addChecksum m := by
  unfold validateChecksum getRealChecksum at h
  simp only [List.getLast?_concat, List.dropLast_concat, Except.ok.injEq, beq_iff_eq] at h
  rw [h]; rfl

example : addChecksum [0x05, 0x38, 0x00, 0x79, 0x64] = [0x05, 0x38, 0x00, 0x79, 0x64, 0xe6] := by
  decide

/-! ## C02 -/

/-- C02: replacing any one byte of a message with a valid checksum by a
different value is detected. -/
theorem C02_single_byte_error (m : Bytes) (hv : validateChecksum m = .ok true)
    (i : Nat) (hi : i < m.length) (v : UInt8) (hne : v ≠ m[i]) :
    validateChecksum (m.set i v) = .ok false := by
  have hm : m ≠ [] := by intro h; subst h; simp at hi
  have hm' : m.set i v ≠ [] := by simpa using hm
  rw [validateChecksum_eq hm] at hv
  rw [validateChecksum_eq hm']
  simp only [Except.ok.injEq, decide_eq_true_eq] at hv
  simp only [Except.ok.injEq, decide_eq_false_iff_not]
  have h1 := sumBytes_set m i hi v
  have h2 := v.toNat_lt
  have h3 := (m[i]).toNat_lt
  have h4 : v.toNat ≠ (m[i]).toNat := fun h => hne (UInt8.toNat_inj.1 h)
  omega

example : validateChecksum [0x05, 0x38, 0x00, 0x79, 0x64, 0xe6] = .ok true ∧
    validateChecksum ([0x05, 0x38, 0x00, 0x79, 0x64, 0xe6].set 4 0x65) = .ok false := by decide

/-- What the checksum does not promise: swapping two bytes is never noticed. -/
theorem C02_swap_undetected (a b c : Bytes) (x y : UInt8)
    (hv : validateChecksum (a ++ x :: b ++ y :: c) = .ok true) :
    validateChecksum (a ++ y :: b ++ x :: c) = .ok true := by
  have e : sumBytes (a ++ y :: b ++ x :: c) = sumBytes (a ++ x :: b ++ y :: c) := by
    simp only [sumBytes_append, sumBytes]; omega
  rw [validateChecksum_eq (by simp)] at hv ⊢
  rw [e]; exact hv

/-! ## C03 -/

/-- The bytes an ordinary packet stands for, `p.encode()`. -/
def rawEncode : Packet → Option (Py Bytes)
  | .pm p => some p.encode
  | .pp p => some p.encode
  | .dm p => some (.ok p.encode)
  | _ => none

/-- C03: the text form of an ordinary packet is made of an even number of
upper-case hex digits, contains no line-control character, and decodes to
exactly the encoded bytes. -/
theorem C03_base16_clean (p : Packet) (raw : Py Bytes) (hp : rawEncode p = some raw) (w : Bytes)
    (hw : p.encodePacket = .ok w) :
    ∃ m, raw = .ok m ∧ w.length = 2 * m.length ∧ (∀ c ∈ w, HexDigit c) ∧
      (∀ c ∈ w, c ∉ LineControl) ∧ b16decode w = .ok m := by
  have key : ∀ m, (∀ c ∈ b16encode m, c ∉ LineControl) := by
    intro m c hc
    have := b16encode_upper m c hc
    unfold IsUpperHex at this
    intro hl
    simp only [LineControl, List.mem_cons, List.not_mem_nil, or_false] at hl
    rcases hl with h|h|h|h|h|h|h|h|h|h|h|h|h|h|h|h|h|h|h|h|h|h|h|h|h|h|h|h|h|h|h <;>
      (subst h; revert this; decide)
  have fin : ∀ m, raw = .ok m → w = b16encode m →
      ∃ m, raw = .ok m ∧ w.length = 2 * m.length ∧ (∀ c ∈ w, HexDigit c) ∧
      (∀ c ∈ w, c ∉ LineControl) ∧ b16decode w = .ok m := by
    intro m h1 h2
    subst h2
    exact ⟨m, h1, b16encode_length m, b16encode_upper m, key m, b16decode_b16encode m⟩
  cases p <;> simp only [rawEncode, Option.some.injEq, reduceCtorEq] at hp
  · rename_i q
    simp only [Packet.encodePacket] at hw
    rw [hp] at hw
    cases raw with
    | error e => simp [bind, Except.bind] at hw
    | ok m => exact fin m rfl (by simpa [bind, Except.bind, pure, Except.pure] using hw.symm)
  · rename_i q
    simp only [Packet.encodePacket] at hw
    rw [hp] at hw
    cases raw with
    | error e => simp [bind, Except.bind] at hw
    | ok m => exact fin m rfl (by simpa [bind, Except.bind, pure, Except.pure] using hw.symm)
  · rename_i q
    subst hp
    simp only [Packet.encodePacket, Except.ok.injEq] at hw
    exact fin _ rfl hw.symm

example : (Packet.dm { parameter := 0x21, value := 0x38, checksum := false }).encodePacket =
    .ok [0x41, 0x33, 0x32, 0x31, 0x30, 0x30, 0x33, 0x38] := by decide

/-- Different messages have different text forms, and decoding only accepts
text that encoding produces. -/
theorem C03_base16_inverse (w m : Bytes) : b16decode w = .ok m ↔ w = b16encode m :=
  ⟨fun h => (b16encode_of_b16decode w m h).symm, fun h => h ▸ b16decode_b16encode m⟩

/-! ## C04 -/

/-- C04: `check_ga` and every lighting SAL constructor accept exactly 0..255. -/
theorem C04_group_address (ga : Int) :
    (checkGa ga = .ok () ↔ 0 ≤ ga ∧ ga ≤ 255) ∧
    (checkGa ga = .error .valueError ↔ ¬ (0 ≤ ga ∧ ga ≤ 255)) ∧
    (validateGa ga = true ↔ 0 ≤ ga ∧ ga ≤ 255) := by
  unfold checkGa validateGa
  by_cases h : 0 ≤ ga ∧ ga ≤ 255
  · simp [h.1, h.2]
  · simp only [not_and] at h
    by_cases h0 : 0 ≤ ga
    · simp [h0, h h0]
    · simp [h0]

/-- C04 for the constructors: with a good address they build the SAL, otherwise
they raise `ValueError`. -/
theorem C04_constructors (ga dur : Int) (lvl : PyNum) :
    (0 ≤ ga ∧ ga ≤ 255 →
      mkLightOn ga = .ok (.lightOn ga) ∧ mkLightOff ga = .ok (.lightOff ga) ∧
      mkLightTerminate ga = .ok (.lightTerminate ga) ∧
      mkLightRamp ga dur lvl = .ok (.lightRamp ga dur lvl)) ∧
    (¬ (0 ≤ ga ∧ ga ≤ 255) →
      mkLightOn ga = .error .valueError ∧ mkLightOff ga = .error .valueError ∧
      mkLightTerminate ga = .error .valueError ∧
      mkLightRamp ga dur lvl = .error .valueError) := by
  obtain ⟨h1, h2, -⟩ := C04_group_address ga
  constructor
  · intro h
    simp [mkLightOn, mkLightOff, mkLightTerminate, mkLightRamp, h1.2 h, bind, Except.bind, pure,
      Except.pure]
  · intro h
    simp [mkLightOn, mkLightOff, mkLightTerminate, mkLightRamp, h2.2 h, bind, Except.bind]

example : checkGa 255 = .ok () ∧ checkGa 256 = .error .valueError ∧
    checkGa (-1) = .error .valueError := by decide

/-! ## C05, C06 -/

theorem durationToRate_eq : durationToRate =
    [(0, 0x02), (4, 0x0a), (8, 0x12), (12, 0x1a), (20, 0x22), (30, 0x2a), (40, 0x32), (60, 0x3a),
     (90, 0x42), (120, 0x4a), (180, 0x52), (300, 0x5a), (420, 0x62), (600, 0x6a), (900, 0x72),
     (1020, 0x7a)] := by decide

/-- `quantise` meets its relational specification, which determines it. -/
theorem quantise_spec (d : Int) : IsQuantised d (quantise d) := by
  unfold IsQuantised quantise rampDurations
  simp only [List.mem_cons, List.not_mem_nil, or_false, forall_eq_or_imp, forall_eq]
  repeat' split
  all_goals omega

theorem quantise_unique (d q : Int) (h : IsQuantised d q) : q = quantise d := by
  obtain ⟨h1, h2, h3⟩ := h
  obtain ⟨k1, k2, k3⟩ := quantise_spec d
  by_cases hd : d ≤ 1020
  · have a := (h2 hd).2 _ k1 (k2 hd).1
    have b := (k2 hd).2 _ h1 (h2 hd).1
    omega
  · rw [h3 (by omega), k3 (by omega)]

/-- C05: the code returned by `duration_to_ramp_rate` stands for the least
supported duration that is not below the requested one, or for 1020 s if the
request is longer. -/
theorem C05_round_up (d : Int) :
    ∃ q, rampRateToDuration (durationToRampRate d).toNat = .ok q ∧ IsQuantised d q := by
  refine ⟨quantise d, ?_, quantise_spec d⟩
  have e : durationToRampRate d = durationSearch d durationToRate := rfl
  rw [e, durationToRate_eq]
  by_cases h0 : d ≤ 0
  · simp [durationSearch, quantise, h0]; decide
  by_cases h1 : d ≤ 4
  · simp [durationSearch, quantise, h0, h1]; decide
  by_cases h2 : d ≤ 8
  · simp [durationSearch, quantise, h0, h1, h2]; decide
  by_cases h3 : d ≤ 12
  · simp [durationSearch, quantise, h0, h1, h2, h3]; decide
  by_cases h4 : d ≤ 20
  · simp [durationSearch, quantise, h0, h1, h2, h3, h4]; decide
  by_cases h5 : d ≤ 30
  · simp [durationSearch, quantise, h0, h1, h2, h3, h4, h5]; decide
  by_cases h6 : d ≤ 40
  · simp [durationSearch, quantise, h0, h1, h2, h3, h4, h5, h6]; decide
  by_cases h7 : d ≤ 60
  · simp [durationSearch, quantise, h0, h1, h2, h3, h4, h5, h6, h7]; decide
  by_cases h8 : d ≤ 90
  · simp [durationSearch, quantise, h0, h1, h2, h3, h4, h5, h6, h7, h8]; decide
  by_cases h9 : d ≤ 120
  · simp [durationSearch, quantise, h0, h1, h2, h3, h4, h5, h6, h7, h8, h9]; decide
  by_cases h10 : d ≤ 180
  · simp [durationSearch, quantise, h0, h1, h2, h3, h4, h5, h6, h7, h8, h9, h10]; decide
  by_cases h11 : d ≤ 300
  · simp [durationSearch, quantise, h0, h1, h2, h3, h4, h5, h6, h7, h8, h9, h10, h11]; decide
  by_cases h12 : d ≤ 420
  · simp [durationSearch, quantise, h0, h1, h2, h3, h4, h5, h6, h7, h8, h9, h10, h11, h12]; decide
  by_cases h13 : d ≤ 600
  · simp [durationSearch, quantise, h0, h1, h2, h3, h4, h5, h6, h7, h8, h9, h10, h11, h12, h13]; decide
  by_cases h14 : d ≤ 900
  · simp [durationSearch, quantise, h0, h1, h2, h3, h4, h5, h6, h7, h8, h9, h10, h11, h12, h13, h14]; decide
  by_cases h15 : d ≤ 1020
  · simp [durationSearch, quantise, h0, h1, h2, h3, h4, h5, h6, h7, h8, h9, h10, h11, h12, h13, h14, h15]; decide
  simp [durationSearch, quantise, h0, h1, h2, h3, h4, h5, h6, h7, h8, h9, h10, h11, h12, h13, h14, h15]; decide

theorem rampRateToDuration_durationToRampRate (d : Int) :
    rampRateToDuration (durationToRampRate d).toNat = .ok (quantise d) := by
  obtain ⟨q, h1, h2⟩ := C05_round_up d
  rw [h1, quantise_unique d q h2]

example : durationToRampRate 13 = 0x22 ∧ durationToRampRate 5000 = 0x7a ∧
    durationToRampRate (-3) = 0x02 := by decide

/-- C06 (a): supported durations are reproduced exactly. -/
theorem C06_duration_exact (d : Int) (h : d ∈ rampDurations) :
    rampRateToDuration (durationToRampRate d).toNat = .ok d := by
  obtain ⟨q, h1, -, h2, h3⟩ := C05_round_up d
  have hd : d ≤ 1020 := by
    simp only [rampDurations, List.mem_cons, List.not_mem_nil, or_false] at h; omega
  obtain ⟨a, b⟩ := h2 hd
  have := b d h (Int.le_refl d)
  rw [h1, show q = d by omega]

/-- C06 (b): the table, and `KeyError` exactly off the table. -/
theorem C06_rate_table (c : Int) :
    (∃ k : Nat, k < 16 ∧ c = rampCode k ∧
      ∃ d, rampDurations[k]? = some d ∧ rampRateToDuration c = .ok d ∧
        (durationToRampRate d).toNat = c) ∨
    ((∀ k : Nat, k < 16 → c ≠ rampCode k) ∧ rampRateToDuration c = .error .keyError) := by
  by_cases h : ∃ k : Fin 16, c = rampCode k.val
  · left
    obtain ⟨k, hk⟩ := h
    refine ⟨k.val, k.isLt, hk, ?_⟩
    subst hk
    revert k
    decide +kernel
  · right
    have h' : ∀ k : Nat, k < 16 → c ≠ rampCode k := fun k hk hc => h ⟨⟨k, hk⟩, hc⟩
    refine ⟨h', ?_⟩
    unfold rampRateToDuration
    have : lightRampRates.find? (fun p => ((p.1.toNat : Int) == c)) = none := by
      rw [List.find?_eq_none]
      intro p hp hc
      have hall : ∀ p ∈ lightRampRates, ∃ k : Fin 16, p.1.toNat = rampCode k.val := by decide
      obtain ⟨k, hk⟩ := hall p hp
      apply h' k.val k.isLt
      simp only [beq_iff_eq] at hc
      rw [← hc, hk]
    rw [this]

/-- C06 (c): a longer request never gives a shorter ramp. -/
theorem C06_monotone (d d' : Int) (h : d ≤ d') (q q' : Int)
    (hq : rampRateToDuration (durationToRampRate d).toNat = .ok q)
    (hq' : rampRateToDuration (durationToRampRate d').toNat = .ok q') : q ≤ q' := by
  rw [rampRateToDuration_durationToRampRate] at hq hq'
  injection hq with hq; injection hq' with hq'
  subst hq; subst hq'
  unfold quantise
  repeat' split
  all_goals omega

example : rampRateToDuration 0x42 = .ok 90 ∧ rampRateToDuration 0x43 = .error .keyError ∧
    rampRateToDuration (-1) = .error .keyError := by decide

end CBus.Props
