import Verif.Model.Duration
import Verif.Props.Codec

/-! # C05 for every number -/

namespace CBus.Props
open CBus CBus.Spec

theorem durationSearch_int (i : Int) : ∀ l, durationSearchNum (.int i) l = durationSearch i l
  | [] => rfl
  | (d, c) :: rest => by
    have h : PyNum.leRat (.int i) (d : Rat) = decide (i ≤ (d : Int)) := by
      show decide ((i : Rat) ≤ ((d : Int) : Rat)) = _
      simp only [Rat.intCast_le_intCast]
    simp only [durationSearchNum, durationSearch, h, decide_eq_true_eq, durationSearch_int i rest]

theorem durationSearch_flt (q : Rat) : ∀ l, durationSearchNum (.flt q) l = durationSearch q.ceil l
  | [] => rfl
  | (d, c) :: rest => by
    have h : PyNum.leRat (.flt q) (d : Rat) = decide (q.ceil ≤ (d : Int)) := by
      show decide (q ≤ ((d : Int) : Rat)) = _
      simp only [Rat.ceil_le_iff]
    simp only [durationSearchNum, durationSearch, h, decide_eq_true_eq, durationSearch_flt q rest]

/-- C05 for every number: the duration of a ramp is the least supported one that is not below the requested one,
whether or not that is whole, or 1020 s if there is none. -/
theorem C05_number (q : Rat) :
    ∃ d : Int, rampRateToDuration (durationToRampRateNum (.flt q)).toNat = .ok d ∧ d ∈ rampDurations ∧
      (q ≤ 1020 → q ≤ (d : Rat) ∧ ∀ s ∈ rampDurations, q ≤ (s : Rat) → d ≤ s) ∧ (1020 < q → d = 1020) := by
  obtain ⟨d, h1, h2, h3, h4⟩ := C05_round_up q.ceil
  refine ⟨d, ?_, h2, fun hq => ?_, fun hq => ?_⟩
  · rw [durationToRampRateNum, durationSearch_flt]; exact h1
  · obtain ⟨h5, h6⟩ := h3 (Rat.ceil_le_iff.2 hq)
    exact ⟨Rat.ceil_le_iff.1 h5, fun s hs hqs => h6 s hs (Rat.ceil_le_iff.2 hqs)⟩
  · exact h4 (Rat.lt_ceil_iff.2 hq)

/-- C05 for the rest of the numbers: no number and an endless time are taken for the longest duration, and less than any
time for none. -/
theorem C05_extremes :
    rampRateToDuration (durationToRampRateNum .nan).toNat = .ok 1020 ∧
    rampRateToDuration (durationToRampRateNum (.inf false)).toNat = .ok 1020 ∧
    rampRateToDuration (durationToRampRateNum (.inf true)).toNat = .ok 0 := by
  decide +kernel

/-- C05: for whole numbers this is the encoding of a ramp as elsewhere in the model. -/
theorem C05_whole (ga d : Int) (l : PyNum) : rampEncodeNum ga (.int d) l = (SAL.lightRamp ga d l).encode := by
  simp only [rampEncodeNum, SAL.encode, durationToRampRateNum, durationSearch_int, durationToRampRate]
  split
  · rfl
  · simp only [bind, Except.bind, pure, Except.pure]
    cases checkGa ga with
    | error e => rfl
    | ok u =>
      cases mkByte ga with
      | error e => rfl
      | ok g => cases l.toByte <;> rfl

/-- C05: a ramp over a time that is not whole takes no less than that. -/
theorem C05_ramp (ga : Int) (q : Rat) (l : Int) (hg : 0 ≤ ga ∧ ga ≤ 255) (hl : 0 ≤ l ∧ l ≤ 255) (hq : q ≤ 1020) :
    ∃ (c : UInt8) (d : Int), rampEncodeNum ga (.flt q) (.int l) = .ok [c, UInt8.ofNat ga.toNat, UInt8.ofNat l.toNat] ∧
      rampRateToDuration c.toNat = .ok d ∧ q ≤ (d : Rat) := by
  obtain ⟨d, h1, -, h3, -⟩ := C05_number q
  refine ⟨durationToRampRateNum (.flt q), d, ?_, h1, (h3 hq).1⟩
  have h5 : (PyNum.int l).ltRat 0 = false := by
    show decide ((l : Rat) < ((0 : Int) : Rat)) = false
    simp only [Rat.intCast_lt_intCast]; simp; omega
  have h6 : (PyNum.int l).gtRat 255 = false := by
    show decide (((255 : Int) : Rat) < (l : Rat)) = false
    simp only [Rat.intCast_lt_intCast]; simp; omega
  simp only [rampEncodeNum, h5, h6, Bool.or_false, Bool.false_eq_true, if_false]
  have h7 : checkGa ga = .ok () := by simp [checkGa, validateGa, hg.1, hg.2]
  have h8 : ∀ x : Int, 0 ≤ x ∧ x ≤ 255 → mkByte x = .ok (UInt8.ofNat x.toNat) := by
    intro x hx
    simp only [mkByte]
    split
    · rfl
    · omega
  simp only [h7, h8 ga hg, PyNum.toByte, h8 l hl]

/-- Two and a half seconds take four, and seventeen minutes and a bit take seventeen minutes. -/
example : rampEncodeNum 1 (.flt (5 / 2)) (.int 255) = .ok [0x0a, 1, 255] ∧
    rampEncodeNum 1 (.flt (10201 / 10)) (.int 255) = .ok [0x7a, 1, 255] ∧
    rampEncodeNum 1 (.flt (5 / 2)) (.flt 255) = .error .typeError := by
  decide +kernel

end CBus.Props
