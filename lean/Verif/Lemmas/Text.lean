import Verif.Model.Text
import Verif.Spec.Text

/-! # Lemmas about Python strings -/

namespace CBus

theorem digitChar_toNat : ∀ n : Nat, n < 10 → (digitChar n).toNat = 48 + n := by decide +kernel

theorem digitChar_eq : ∀ n : Nat, n < 10 → digitChar n = Nat.digitChar n := by decide +kernel

theorem natStrAux_eq : ∀ (f n : Nat), n < f → natStrAux f n = Nat.toDigits 10 n := by
  intro f
  induction f with
  | zero => intro n h; omega
  | succ f ih =>
    intro n h
    rw [Nat.toDigits_eq_if (by decide)]
    unfold natStrAux
    by_cases h10 : n < 10
    · rw [if_pos h10, if_pos h10, digitChar_eq n h10]
    · rw [if_neg h10, if_neg h10, ih (n / 10) (by omega), digitChar_eq _ (by omega)]

/-- `str(n)` is the decimal representation. -/
theorem natStr_eq (n : Nat) : natStr n = Nat.toDigits 10 n := natStrAux_eq _ n (by omega)

theorem natStr_step (n : Nat) :
    natStr n = if n < 10 then [digitChar n] else natStr (n / 10) ++ [digitChar (n % 10)] := by
  rw [natStr_eq, natStr_eq, Nat.toDigits_eq_if (by decide)]
  split
  · rename_i h; rw [digitChar_eq n h]
  · rw [digitChar_eq _ (by omega)]

theorem natStr_digit (n : Nat) : ∀ c ∈ natStr n, 48 ≤ c.toNat ∧ c.toNat ≤ 57 := by
  induction n using Nat.strongRecOn with
  | _ n ih =>
    intro c hc
    rw [natStr_step] at hc
    split at hc
    · rename_i h
      rw [List.mem_singleton] at hc
      rw [hc, digitChar_toNat n h]
      omega
    · rename_i h
      rcases List.mem_append.1 hc with hc | hc
      · exact ih (n / 10) (by omega) c hc
      · rw [List.mem_singleton] at hc
        rw [hc, digitChar_toNat _ (by omega)]
        omega

theorem natStr_ne_nil (n : Nat) : natStr n ≠ [] := by
  rw [natStr_eq]; exact Nat.toDigits_ne_nil

theorem intStr_char (i : Int) : ∀ c ∈ intStr i, (48 ≤ c.toNat ∧ c.toNat ≤ 57) ∨ c = '-' := by
  intro c hc
  unfold intStr at hc
  split at hc
  · rcases List.mem_cons.1 hc with rfl | hc
    · exact .inr rfl
    · exact .inl (natStr_digit _ c hc)
  · exact .inl (natStr_digit _ c hc)

theorem intStr_ne_nil (i : Int) : intStr i ≠ [] := by
  unfold intStr; split
  · simp
  · exact natStr_ne_nil _

theorem intStr_no_slash (i : Int) : ∀ c ∈ intStr i, c ≠ '/' := by
  intro c hc h
  subst h
  rcases intStr_char i _ hc with h | h
  · revert h; decide
  · revert h; decide

namespace UniTable
variable (u : UniTable)

theorem decimal_digit (n : Nat) (h : n < 10) : u.decimal (digitChar n) = some n := by
  have h1 := digitChar_toNat n h
  rw [u.ascii_decimal _ (by omega), if_pos (by omega), h1]
  congr 1; omega

theorem digit_ne_underscore : ∀ n : Nat, n < 10 → digitChar n ≠ '_' := by decide +kernel

/-- Reading back what `str` wrote. -/
theorem digits_natStr (n : Nat) : ∀ (prev : Bool) (acc : Nat) (r : Str),
    u.digits prev acc (natStr n ++ r) = u.digits true (acc * 10 ^ (natStr n).length + n) r := by
  induction n using Nat.strongRecOn with
  | _ n ih =>
    intro prev acc r
    have one : ∀ (prev : Bool) (acc d : Nat), d < 10 →
        u.digits prev acc (digitChar d :: r) = u.digits true (10 * acc + d) r := by
      intro prev acc d hd
      rw [digits, if_neg (digit_ne_underscore d hd), u.decimal_digit d hd]
    rw [natStr_step]
    split
    · rename_i h
      simp only [List.cons_append, List.nil_append, List.length_cons, List.length_nil, Nat.zero_add, Nat.pow_one]
      rw [one prev acc n h, Nat.mul_comm]
    · rename_i h
      rw [List.append_assoc, ih (n / 10) (by omega), List.singleton_append, one _ _ _ (by omega)]
      congr 1
      simp only [List.length_append, List.length_cons, List.length_nil, Nat.pow_succ, Nat.zero_add]
      rw [← Nat.mul_assoc]
      have h3 := Nat.div_add_mod n 10
      generalize acc * 10 ^ (natStr (n / 10)).length = X
      omega

theorem dropWhile_none {α : Type} (p : α → Bool) (l : List α) (h : ∀ a ∈ l, p a = false) : l.dropWhile p = l := by
  cases l with
  | nil => rfl
  | cons a l => simp [h a (by simp)]

/-- `int(str(i)) == i`. -/
theorem intOf_intStr (i : Int) : u.intOf (intStr i) = .ok i := by
  have hs : ∀ c ∈ intStr i, u.intSpace c = false := by
    intro c hc
    rcases intStr_char i c hc with h | h
    · unfold intSpace
      rw [if_pos (by omega)]
      simp; omega
    · subst h; rfl
  unfold intOf
  rw [dropWhile_none _ _ hs, dropWhile_none _ _ (by intro a ha; exact hs a (List.mem_reverse.1 ha)), List.reverse_reverse]
  have hd := u.digits_natStr i.natAbs false 0 []
  simp only [List.append_nil, Nat.zero_mul, Nat.zero_add, digits, if_true] at hd
  have key : u.signed (intStr i) = some i := by
    unfold intStr
    split
    · rw [signed, if_pos rfl, hd]
      simp only [Option.map_some, Option.some.injEq]
      show -((i.natAbs : Nat) : Int) = i
      omega
    · obtain ⟨c, r, hr⟩ := List.exists_cons_of_ne_nil (natStr_ne_nil i.natAbs)
      have hc := natStr_digit i.natAbs c (by rw [hr]; simp)
      have h1 : c ≠ '-' := by intro h; subst h; revert hc; decide
      have h2 : c ≠ '+' := by intro h; subst h; revert hc; decide
      rw [hr] at hd ⊢
      rw [signed, if_neg h1, if_neg h2, hd]
      simp only [Option.map_some, Option.some.injEq]
      show ((i.natAbs : Nat) : Int) = i
      omega
  rw [key]

end UniTable

theorem intStr_inj {i j : Int} (h : intStr i = intStr j) : i = j := by
  have h1 := UniTable.intOf_intStr .ascii i
  rw [h, UniTable.intOf_intStr] at h1
  simpa using h1.symm

/-- `str(i)` is the decimal representation. -/
theorem intStr_toString (i : Int) : intStr i = (toString i).toList := by
  cases i with
  | ofNat n =>
    show intStr (n : Int) = (Int.repr (Int.ofNat n)).toList
    simp only [Int.repr, intStr, Nat.toList_repr]
    rw [if_neg (by omega)]
    exact natStr_eq n
  | negSucc n =>
    show intStr (Int.negSucc n) = (Int.repr (Int.negSucc n)).toList
    rw [intStr, if_pos (Int.negSucc_lt_zero n)]
    simp only [Int.repr, Int.natAbs_negSucc]
    rw [natStr_eq]
    simp [String.toList_append, Nat.toList_repr]

open CBus.Spec

theorem dropWhile_split (p : Char → Bool) (s : Str) : ∃ l, s = l ++ s.dropWhile p ∧ (∀ c ∈ l, p c = true) ∧
    ∀ c, (s.dropWhile p).head? = some c → p c = false := by
  induction s with
  | nil => exact ⟨[], rfl, by simp, by simp⟩
  | cons x s ih =>
    obtain ⟨l, h1, h2, h3⟩ := ih
    by_cases hx : p x = true
    · refine ⟨x :: l, ?_, ?_, ?_⟩
      · rw [List.dropWhile_cons_of_pos hx, List.cons_append, ← h1]
      · intro c hc
        rcases List.mem_cons.1 hc with rfl | hc
        · exact hx
        · exact h2 c hc
      · rw [List.dropWhile_cons_of_pos hx]; exact h3
    · refine ⟨[], ?_, by simp, ?_⟩
      · rw [List.dropWhile_cons_of_neg hx]; rfl
      · rw [List.dropWhile_cons_of_neg hx]
        intro c hc
        simp only [List.head?_cons, Option.some.injEq] at hc
        subst hc
        simpa using hx

theorem strip_stripped (u : UniTable) (s : Str) : Stripped u.isSpace s (u.strip s) := by
  obtain ⟨l, h1, h2, h3⟩ := dropWhile_split u.isSpace s
  obtain ⟨r, k1, k2, k3⟩ := dropWhile_split u.isSpace (s.dropWhile u.isSpace).reverse
  have e : s.dropWhile u.isSpace = u.strip s ++ r.reverse := by
    have := congrArg List.reverse k1
    rw [List.reverse_reverse, List.reverse_append] at this
    exact this
  refine ⟨⟨l, r.reverse, ?_, h2, ?_⟩, ?_, ?_⟩
  · rw [List.append_assoc, ← e, ← h1]
  · intro c hc; exact k2 c (List.mem_reverse.1 hc)
  · intro c hc
    apply h3
    rw [e, List.head?_append, hc]; rfl
  · intro c hc
    apply k3
    unfold UniTable.strip at hc
    rw [List.getLast?_reverse] at hc
    exact hc

/-- There is only one way to remove the white space around a text. -/
theorem stripped_unique (p : Char → Bool) {s t t' : Str} (h : Stripped p s t) (h' : Stripped p s t') : t = t' := by
  have key : ∀ {s t}, Stripped p s t → t = ((s.dropWhile p).reverse.dropWhile p).reverse := by
    intro s t ⟨⟨l, r, h1, h2, h3⟩, h4, h5⟩
    subst h1
    have d1 : ∀ (l x : Str), (∀ c ∈ l, p c = true) → (l ++ x).dropWhile p = x.dropWhile p := by
      intro l x hl
      induction l with
      | nil => rfl
      | cons a l ih =>
        rw [List.cons_append, List.dropWhile_cons_of_pos (hl a (by simp))]
        exact ih fun c hc => hl c (by simp [hc])
    have d2 : ∀ x : Str, (∀ c, x.head? = some c → p c = false) → x.dropWhile p = x := by
      intro x hx
      cases x with
      | nil => rfl
      | cons a x => rw [List.dropWhile_cons_of_neg (by simp [hx a rfl])]
    cases t with
    | nil =>
      have : (l ++ [] ++ r).dropWhile p = [] := by
        have := d1 (l ++ [] ++ r) [] (by
          intro c hc
          simp only [List.append_nil, List.mem_append] at hc
          rcases hc with hc | hc
          · exact h2 c hc
          · exact h3 c hc)
        simpa using this
      rw [this]; rfl
    | cons a t =>
      rw [List.append_assoc, d1 _ _ h2, d2 (a :: t ++ r) (by intro c hc; exact h4 c (by simpa using hc)), List.reverse_append,
        d1 _ _ (by intro c hc; exact h3 c (List.mem_reverse.1 hc)), d2 _ (by
          intro c hc
          rw [List.head?_reverse] at hc
          exact h5 c hc), List.reverse_reverse]
  rw [key h, key h']

end CBus
