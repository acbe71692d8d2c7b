import Verif.Model.Sequence
import Verif.Props.Report

/-! # C91, C92: packets as sequences -/

namespace CBus.Props
open CBus

/-! ## C91 -/

/-- Reading a sequence: the elements from the front for indices from 0, from the back
for negative ones, `IndexError` otherwise. -/
structure ReadsAs {α : Type} (len : Nat) (get : Int → Py α) (iter : List α) : Prop where
  length : len = iter.length
  front : ∀ (pre : List α) (x : α) (post : List α), iter = pre ++ x :: post → get pre.length = .ok x
  back : ∀ (pre : List α) (x : α) (post : List α), iter = pre ++ x :: post → get (-(post.length : Int) - 1) = .ok x
  outside : ∀ i : Int, i < -(iter.length : Int) ∨ (iter.length : Int) ≤ i → get i = .error .indexError

theorem readsAs_list {α : Type} (l : List α) : ReadsAs l.length (getItem l) l where
  length := rfl
  front := fun pre x post h => by
    subst h
    unfold getItem
    have h0 : ¬ ((pre.length : Int) < 0) := by omega
    simp only [h0, if_false, Int.toNat_natCast, List.getElem?_append_right (Nat.le_refl _), Nat.sub_self, List.getElem?_cons_zero]
  back := fun pre x post h => by
    subst h
    unfold getItem
    have h0 : -(post.length : Int) - 1 < 0 := by omega
    have h1 : -(post.length : Int) - 1 + ((pre ++ x :: post).length : Nat) = pre.length := by
      simp only [List.length_append, List.length_cons]; omega
    have h2 : ¬ ((pre.length : Int) < 0) := by omega
    simp only [h0, if_true, h1, h2, if_false, Int.toNat_natCast, List.getElem?_append_right (Nat.le_refl _), Nat.sub_self,
      List.getElem?_cons_zero]
  outside := fun i h => by
    unfold getItem
    rcases h with h | h
    · have h0 : i < 0 := by omega
      have h1 : i + (l.length : Int) < 0 := by omega
      simp only [h0, if_true, h1]
    · have h0 : ¬ i < 0 := by omega
      have h1 : l.length ≤ i.toNat := by omega
      simp only [h0, if_false, List.getElem?_eq_none h1]

/-- C91: a point-to-multipoint packet reads as the sequence of its SALs. -/
theorem C91_sals (p : PM) : ReadsAs p.len p.getItem p.iter ∧ p.iter = p.sals := ⟨readsAs_list p.sals, rfl⟩

/-- C91: a point-to-point packet reads as the sequence of its CALs. -/
theorem C91_cals (p : PP) : ReadsAs p.len p.getItem p.iter ∧ p.iter = p.cals := ⟨readsAs_list p.cals, rfl⟩

/-- C91: a status report reads as the sequence of its group states or levels. -/
theorem C91_reports (b : List GroupState) (l : List (Option Int)) :
    (ReadsAs (binaryLen b) (binaryGetItem b) (binaryIter b) ∧ binaryIter b = b) ∧
    (ReadsAs (levelLen l) (levelGetItem l) (levelIter l) ∧ levelIter l = l) :=
  ⟨⟨readsAs_list b, rfl⟩, readsAs_list l, rfl⟩

theorem reversed_list {α : Type} {get : Int → Py α} : ∀ (n : Nat) (pre : List α) (post : List α), pre.length = n →
    (∀ (a : List α) (x : α) (b : List α), pre ++ post = a ++ x :: b → get a.length = .ok x) →
    reversedOf pre.length get = .ok pre.reverse := by
  intro n
  induction n with
  | zero =>
    intro pre _ hn _
    rw [List.eq_nil_of_length_eq_zero hn]
    rfl
  | succ n ih =>
    intro pre post hn h
    obtain ⟨l, x, rfl⟩ : ∃ l x, pre = l ++ [x] := by
      rcases List.eq_nil_or_concat pre with rfl | ⟨l, x, rfl⟩
      · cases hn
      · exact ⟨l, x, by simp⟩
    have h1 := ih l (x :: post) (by simpa using hn) (by simpa using h)
    have h2 : get l.length = .ok x := h l x post (by simp)
    unfold reversedOf at h1 ⊢
    rw [List.length_append, List.length_singleton, List.range_succ, List.reverse_append, List.reverse_append]
    simp only [List.reverse_singleton, List.singleton_append, List.mapM_cons, h2, h1]
    rfl

/-- C91: `reversed` yields the elements in reverse order. -/
theorem C91_reversed (p : PM) (q : PP) :
    reversedOf p.len p.getItem = .ok p.iter.reverse ∧ reversedOf q.len q.getItem = .ok q.iter.reverse := by
  constructor
  · exact reversed_list _ p.sals [] rfl (by rw [List.append_nil]; exact (C91_sals p).1.front)
  · exact reversed_list _ q.cals [] rfl (by rw [List.append_nil]; exact (C91_cals q).1.front)

example :
    let p : PM := { sals := [.lightOn 1, .lightOff 2, .lightOn 3] }
    p.len = 3 ∧ p.getItem 1 = .ok (.lightOff 2) ∧ p.getItem (-1) = .ok (.lightOn 3) ∧ p.getItem 3 = .error .indexError ∧
    p.getItem (-4) = .error .indexError ∧ reversedOf p.len p.getItem = .ok [.lightOn 3, .lightOff 2, .lightOn 1] := by
  decide +kernel

/-- C91: a received binary report, read as a sequence, has the state of group `i` of
its block at `i`, which is the two bits at `2 * (i mod 4)` of byte `i / 4`. -/
theorem C91_binary_group (data : Bytes) (i : Nat) (hi : i < data.length * 4) :
    ∃ g c, binaryGetItem (binaryDecode data) i = .ok g ∧ data[i / 4]? = some c ∧
      g.code.toNat = c.toNat / 4 ^ (i % 4) % 4 := by
  have h := C11_binary_layout data i hi
  have hc : i / 4 < data.length := by omega
  rw [List.getElem?_eq_getElem hc] at h ⊢
  generalize hg : (binaryDecode data)[i]? = o at h
  cases o with
  | none => cases h
  | some g =>
    refine ⟨g, _, ?_, rfl, by simpa using h⟩
    have h0 : ¬ (i : Int) < 0 := by omega
    unfold binaryGetItem getItem
    simp only [h0, if_false, Int.toNat_natCast, hg]

example :
    binaryLen (binaryDecode [0x39]) = 4 ∧ binaryGetItem (binaryDecode [0x39]) 2 = .ok .error ∧
    levelGetItem [some 255, none] (-1) = .ok none ∧ levelGetItem [some 255, none] 2 = .error .indexError := by
  decide +kernel

/-! ## C92 -/

/-- The first of the elements from `start` up to `stop` that is the one sought. -/
def FirstIn {α : Type} (same : α → Bool) (l : List α) (start stop k : Nat) : Prop :=
  start ≤ k ∧ k < stop ∧ (∃ x, l[k]? = some x ∧ same x = true) ∧ ∀ j x, start ≤ j → j < k → l[j]? = some x → same x = false

/-- None of the elements from `start` up to `stop` is the one sought. -/
def NoneIn {α : Type} (same : α → Bool) (l : List α) (start stop : Nat) : Prop :=
  ∀ j x, start ≤ j → j < stop → l[j]? = some x → same x = false

/-- C92 in full: `index(x)` finds the first element that is `x`, and raises `ValueError`
if there is none. -/
def C92_claim : Prop :=
  ∀ (p : PM) (same : SAL → Bool),
    (∀ k, FirstIn same p.sals 0 p.sals.length k → p.index same = .ok k) ∧
    (NoneIn same p.sals 0 p.sals.length → p.index same = .error .valueError)

/-- C92 is false: without bounds `index` raises `TypeError`, whatever is sought. -/
theorem C92_always (p : PM) (q : PP) (same : SAL → Bool) (same' : CAL → Bool) :
    p.index same = .error .typeError ∧ q.index same' = .error .typeError := ⟨rfl, rfl⟩

theorem C92_false : ¬ C92_claim := by
  intro h
  have := (h { sals := [.lightOn 1] } (fun _ => true)).1 0
    ⟨Nat.le_refl _, by decide, ⟨_, rfl, rfl⟩, fun j x _ h => absurd h (by omega)⟩
  cases this

theorem search_spec {α : Type} (same : α → Bool) (stop : Nat) (l : List α) : ∀ (i : Nat),
    (∀ k, FirstIn same l i stop k → searchFrom same stop i (l.drop i) = .ok k) ∧
    (NoneIn same l i stop → searchFrom same stop i (l.drop i) = .error .valueError) := by
  intro i
  induction hn : l.length - i generalizing i with
  | zero =>
    have hd : l.drop i = [] := List.drop_eq_nil_of_le (by omega)
    rw [hd]
    refine ⟨fun k hk => ?_, fun _ => rfl⟩
    obtain ⟨h1, -, ⟨x, h3, -⟩, -⟩ := hk
    rw [List.getElem?_eq_none (by omega)] at h3
    cases h3
  | succ n ih =>
    have hi : i < l.length := by omega
    rw [List.drop_eq_getElem_cons hi]
    simp only [searchFrom]
    obtain ⟨g1, g2⟩ := ih (i + 1) (by omega)
    refine ⟨fun k hk => ?_, fun hn => ?_⟩
    · obtain ⟨h1, h2, ⟨x, h3, h4⟩, h5⟩ := hk
      rw [if_pos (by omega)]
      by_cases hs : same l[i] = true
      · rw [if_pos hs]
        have : ¬ i < k := fun hlt => by
          rw [h5 i l[i] (Nat.le_refl _) hlt (List.getElem?_eq_getElem hi)] at hs
          cases hs
        have : i = k := by omega
        rw [this]
      · rw [if_neg hs]
        refine g1 k ⟨?_, h2, ⟨x, h3, h4⟩, fun j y hj => h5 j y (by omega)⟩
        have : i ≠ k := by
          rintro rfl
          rw [List.getElem?_eq_getElem hi] at h3
          cases h3
          exact hs h4
        omega
    · split
      · rename_i hlt
        have := hn i l[i] (Nat.le_refl _) hlt (List.getElem?_eq_getElem hi)
        rw [this, if_neg (by decide)]
        exact g2 fun j y hj => hn j y (by omega)
      · rfl

/-- Where a bound of a slice of `n` elements is: negative ones count from the end. -/
def boundAt (n : Nat) (i : Int) : Nat := if i < 0 then (i + n).toNat else i.toNat

/-- C92 with both bounds given: `index(x, start, stop)` finds the first element between
the bounds that is `x`, and raises `ValueError` if there is none.

What is missing: the bounds left out, see `C92_always`. -/
theorem C92_bounds_partial (p : PM) (q : PP) (same : SAL → Bool) (same' : CAL → Bool) (start stop : Int) :
    ((∀ k, FirstIn same p.sals (boundAt p.sals.length start) (boundAt p.sals.length stop) k →
        p.index same (.int start) (.int stop) = .ok k) ∧
      (NoneIn same p.sals (boundAt p.sals.length start) (boundAt p.sals.length stop) →
        p.index same (.int start) (.int stop) = .error .valueError)) ∧
    ((∀ k, FirstIn same' q.cals (boundAt q.cals.length start) (boundAt q.cals.length stop) k →
        q.index same' (.int start) (.int stop) = .ok k) ∧
      (NoneIn same' q.cals (boundAt q.cals.length start) (boundAt q.cals.length stop) →
        q.index same' (.int start) (.int stop) = .error .valueError)) :=
  ⟨search_spec same _ p.sals _, search_spec same' _ q.cals _⟩

example :
    let p : PM := { sals := [.lightOn 1, .lightOff 2, .lightOn 1] }
    let same : SAL → Bool := fun s => s = .lightOn 1
    p.index same (.int 0) (.int 3) = .ok 0 ∧ p.index same (.int 1) (.int 3) = .ok 2 ∧
    p.index same (.int (-2)) (.int 100) = .ok 2 ∧ p.index same (.int 1) (.int (-1)) = .error .valueError ∧
    p.index same = .error .typeError := by decide +kernel

end CBus.Props
