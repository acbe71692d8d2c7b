import Verif.Spec.Calendar

/-! Helper lemmas about the calendar. -/

namespace CBus
open Spec

theorem isLeap_iff (y : Nat) : isLeap y = true ↔ Leap y := by
  unfold isLeap Leap
  simp only [Bool.and_eq_true, beq_iff_eq, Bool.or_eq_true, bne_iff_ne]
  constructor
  · rintro ⟨h1, h2⟩; exact ⟨h1, fun h => by rcases h2 with h2 | h2 <;> omega⟩
  · rintro ⟨h1, h2⟩; refine ⟨h1, ?_⟩; by_cases h : y % 100 = 0
    · exact Or.inr (h2 h)
    · exact Or.inl h

theorem daysInMonth_eq (y m : Nat) (h1 : 1 ≤ m) (h2 : m ≤ 12) : daysInMonth y m = monthLength y m := by
  have hl := isLeap_iff y
  have : m = 1 ∨ m = 2 ∨ m = 3 ∨ m = 4 ∨ m = 5 ∨ m = 6 ∨ m = 7 ∨ m = 8 ∨ m = 9 ∨ m = 10 ∨ m = 11 ∨ m = 12 := by
    omega
  rcases this with rfl|rfl|rfl|rfl|rfl|rfl|rfl|rfl|rfl|rfl|rfl|rfl <;>
    simp [daysInMonth, monthLength]
  by_cases h : Leap y
  · simp [h, hl.2 h]
  · have : ¬ isLeap y = true := fun h' => h (hl.1 h')
    simp [h, this]

theorem daysBeforeMonth_succ (y m : Nat) (h : 1 ≤ m) :
    daysBeforeMonth y (m + 1) = daysBeforeMonth y m + daysInMonth y m := by
  cases m with
  | zero => omega
  | succ k => rw [daysBeforeMonth]; omega

theorem daysBeforeMonth_12 (y : Nat) :
    daysBeforeMonth y 12 + 31 = 365 + (if isLeap y then 1 else 0) := by
  simp only [daysBeforeMonth, daysInMonth]
  by_cases h : isLeap y = true <;> simp [h]

theorem daysBeforeYear_succ (y : Nat) (h : 1 ≤ y) :
    daysBeforeYear (y + 1) = daysBeforeYear y + 365 + (if isLeap y then 1 else 0) := by
  have hl := isLeap_iff y
  unfold Leap at hl
  unfold daysBeforeYear
  by_cases h' : isLeap y = true
  · have := hl.1 h'
    simp only [h', if_true]
    obtain ⟨h4, h5⟩ := this
    by_cases h100 : y % 100 = 0
    · have := h5 h100
      omega
    · omega
  · have hn : ¬ (y % 4 = 0 ∧ (y % 100 = 0 → y % 400 = 0)) := fun hc => h' (hl.2 hc)
    simp only [h', if_false]
    by_cases h4 : y % 4 = 0
    · have h5 : y % 100 = 0 ∧ y % 400 ≠ 0 := by
        by_cases h100 : y % 100 = 0
        · exact ⟨h100, fun h400 => hn ⟨h4, fun _ => h400⟩⟩
        · exact absurd ⟨h4, fun hc => absurd hc h100⟩ hn
      obtain ⟨h6, h7⟩ := h5
      simp
      omega
    · simp
      have : y % 100 ≠ 0 := by omega
      have : y % 400 ≠ 0 := by omega
      omega

/-- Python's ordinal advances by one from each day to the next. -/
theorem toOrdinal_nextDay (d : PyDate) (hv : d.Valid) : (nextDay d).toOrdinal = d.toOrdinal + 1 := by
  obtain ⟨h1, h2, h3, h4, h5, h6⟩ := hv
  have hm := daysInMonth_eq d.year d.month h3 h4
  unfold nextDay PyDate.toOrdinal
  split
  · simp; omega
  · rename_i hd
    have hday : d.day = daysInMonth d.year d.month := by omega
    split
    · simp only
      rw [daysBeforeMonth_succ _ _ h3]; omega
    · rename_i hm12
      have hmm : d.month = 12 := by omega
      simp only
      rw [daysBeforeYear_succ _ h1]
      have := daysBeforeMonth_12 d.year
      rw [hmm] at hday ⊢
      have h31 : daysInMonth d.year 12 = 31 := by simp [daysInMonth]
      have h0 : daysBeforeMonth (d.year + 1) 1 = 0 := rfl
      rw [h0, hday, h31]; omega

/-- Every valid date but the first is the day after a valid date. -/
theorem exists_prevDay (d : PyDate) (hv : d.Valid) :
    d = ⟨1, 1, 1⟩ ∨ ∃ p : PyDate, p.Valid ∧ nextDay p = d := by
  obtain ⟨y, m, dd⟩ := d
  obtain ⟨h1, h2, h3, h4, h5, h6⟩ := hv
  simp only at h1 h2 h3 h4 h5 h6
  have mp : ∀ y m, 1 ≤ m → m ≤ 12 → 1 ≤ daysInMonth y m := by
    intro y m _ _; unfold daysInMonth; repeat' split
    all_goals omega
  by_cases hd : 1 < dd
  · right
    refine ⟨⟨y, m, dd - 1⟩, ⟨h1, h2, h3, h4, by simp; omega, by simp; omega⟩, ?_⟩
    unfold nextDay
    rw [daysInMonth_eq _ _ h3 h4] at h6
    simp only
    rw [if_pos (by omega)]
    congr; omega
  · have hd1 : dd = 1 := by omega
    subst hd1
    by_cases hm : 1 < m
    · right
      have e := daysInMonth_eq y (m - 1) (by omega) (by omega)
      refine ⟨⟨y, m - 1, daysInMonth y (m - 1)⟩,
        ⟨h1, h2, by simp; omega, by simp; omega, mp _ _ (by omega) (by omega), Nat.le_refl _⟩, ?_⟩
      unfold nextDay
      simp only
      rw [if_neg (by omega), if_pos (by omega)]
      congr; omega
    · have hm1 : m = 1 := by omega
      subst hm1
      by_cases hy : 1 < y
      · right
        refine ⟨⟨y - 1, 12, 31⟩, ⟨by simp; omega, by simp; omega, by simp, by simp, by simp,
          by simp [daysInMonth]⟩, ?_⟩
        unfold nextDay
        simp [monthLength]; omega
      · left
        have : y = 1 := by omega
        subst this; rfl

theorem isWeekday_weekday (d : PyDate) (hv : d.Valid) : IsWeekday d d.weekday := by
  induction hn : d.toOrdinal using Nat.strongRecOn generalizing d with
  | _ n ih =>
    rcases exists_prevDay d hv with h | ⟨p, hp, h⟩
    · subst h; exact IsWeekday.first
    · have ho := toOrdinal_nextDay p hp
      rw [h] at ho
      have := IsWeekday.next (ih p.toOrdinal (by omega) p hp rfl)
      rw [h] at this
      have e : (p.weekday + 1) % 7 = d.weekday := by
        unfold PyDate.weekday; rw [ho]; omega
      rwa [e] at this

end CBus
