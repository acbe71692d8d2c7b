import Verif.Model.Common

/-! Helper lemmas about the Python primitives. -/

namespace CBus

theorem forall_byte {P : UInt8 → Prop} (h : ∀ n : Fin 256, P (UInt8.ofNat n.val)) : ∀ b, P b := by
  intro b
  have := h ⟨b.toNat, b.toNat_lt⟩
  simpa using this

theorem toNat_ofNat_lt {n : Nat} (h : n < 256) : (UInt8.ofNat n).toNat = n := by
  simp [UInt8.toNat_ofNat']; omega

theorem mkByte_ok {x : Int} (h0 : 0 ≤ x) (h1 : x < 256) : mkByte x = .ok (UInt8.ofNat x.toNat) := by
  simp [mkByte, h0, h1]

theorem mkByte_err {x : Int} (h : ¬ (0 ≤ x ∧ x < 256)) : mkByte x = .error .valueError := by
  simp only [mkByte]; rw [if_neg h]

theorem mkByte_ok_iff {x : Int} {b : UInt8} : mkByte x = .ok b ↔ (b.toNat : Int) = x := by
  unfold mkByte
  split
  · rename_i h
    constructor
    · intro e; injection e with e; subst e
      rw [toNat_ofNat_lt (by omega)]; omega
    · intro e; subst e; simp
  · rename_i h
    constructor
    · intro e; cases e
    · intro e; have := b.toNat_lt; exfalso; apply h; omega

theorem lowByte_of_range {x : Int} (h0 : 0 ≤ x) (h1 : x < 256) : lowByte x = UInt8.ofNat x.toNat := by
  unfold lowByte; congr 2; omega

theorem lowByte_toNat (x : Int) : ((lowByte x).toNat : Int) = x % 256 := by
  unfold lowByte; rw [toNat_ofNat_lt (by omega)]; omega

@[simp] theorem lowByte_cast (b : UInt8) : lowByte (b.toNat : Int) = b := by
  have := b.toNat_lt
  rw [lowByte_of_range (by omega) (by omega)]; simp

theorem ofNat_toNat_int {x : Int} (h0 : 0 ≤ x) (h1 : x < 256) :
    (((UInt8.ofNat x.toNat).toNat : Nat) : Int) = x := by
  rw [toNat_ofNat_lt (by omega)]; omega

/-! ### base16 -/

theorem hexVal_hexDigit {n : Nat} (h : n < 16) : hexVal (hexDigit n) = some n := by
  have : ∀ n : Fin 16, hexVal (hexDigit n.val) = some n.val := by decide +kernel
  exact this ⟨n, h⟩

theorem b16decode_b16encode (m : Bytes) : b16decode (b16encode m) = .ok m := by
  induction m with
  | nil => rfl
  | cons b bs ih =>
    have hb := b.toNat_lt
    simp only [b16encode, b16decode]
    rw [hexVal_hexDigit (by omega), hexVal_hexDigit (by omega)]
    simp only [ih]
    congr 2
    have : b.toNat / 16 * 16 + b.toNat % 16 = b.toNat := by omega
    rw [this]; simp

theorem b16encode_length (m : Bytes) : (b16encode m).length = 2 * m.length := by
  induction m with
  | nil => rfl
  | cons b bs ih => simp [b16encode, ih]; omega

/-- An upper-case base16 digit, as a byte range. -/
def IsUpperHex (c : UInt8) : Prop :=
  (48 ≤ c.toNat ∧ c.toNat ≤ 57) ∨ (65 ≤ c.toNat ∧ c.toNat ≤ 70)

instance (c : UInt8) : Decidable (IsUpperHex c) := by unfold IsUpperHex; infer_instance

theorem hexDigit_upper {n : Nat} (h : n < 16) : IsUpperHex (hexDigit n) := by
  have : ∀ n : Fin 16, IsUpperHex (hexDigit n.val) := by decide +kernel
  exact this ⟨n, h⟩

theorem b16encode_upper (m : Bytes) : ∀ c ∈ b16encode m, IsUpperHex c := by
  induction m with
  | nil => simp [b16encode]
  | cons b bs ih =>
    have hb := b.toNat_lt
    intro c hc
    simp only [b16encode, List.mem_cons] at hc
    rcases hc with rfl | rfl | hc
    · exact hexDigit_upper (by omega)
    · exact hexDigit_upper (by omega)
    · exact ih c hc

theorem hexVal_isSome_iff (c : UInt8) : (hexVal c).isSome ↔ IsUpperHex c := by
  unfold hexVal IsUpperHex
  split
  · simp_all
  · split <;> simp_all

theorem hexVal_lt {c : UInt8} {n : Nat} (h : hexVal c = some n) : n < 16 := by
  unfold hexVal at h
  split at h
  · injection h; omega
  · split at h
    · injection h; omega
    · cases h

theorem hexDigit_hexVal {c : UInt8} {n : Nat} (h : hexVal c = some n) : hexDigit n = c := by
  have : ∀ c : UInt8, ∀ n, hexVal c = some n → hexDigit n = c := by
    apply forall_byte
    intro k
    have : ∀ k : Fin 256, ∀ n : Fin 16, hexVal (UInt8.ofNat k.val) = some n.val →
        hexDigit n.val = UInt8.ofNat k.val := by decide +kernel
    intro n hn
    exact this k ⟨n, hexVal_lt hn⟩ hn
  exact this c n h

theorem b16encode_of_b16decode : ∀ (s r : Bytes), b16decode s = .ok r → b16encode r = s
  | [], r, h => by simp [b16decode] at h; subst h; rfl
  | [_], r, h => by simp [b16decode] at h
  | x :: y :: rest, r, h => by
    simp only [b16decode] at h
    cases hx : hexVal x with
    | none => simp [hx] at h
    | some a =>
      cases hy : hexVal y with
      | none => simp [hx, hy] at h
      | some b =>
        cases hr : b16decode rest with
        | error e => simp [hx, hy, hr] at h
        | ok r' =>
          simp only [hx, hy, hr] at h
          injection h with h; subst h
          have ha := hexVal_lt hx
          have hb := hexVal_lt hy
          simp only [b16encode]
          rw [toNat_ofNat_lt (by omega), b16encode_of_b16decode rest r' hr]
          have h1 : (a * 16 + b) / 16 = a := by omega
          have h2 : (a * 16 + b) % 16 = b := by omega
          rw [h1, h2, hexDigit_hexVal hx, hexDigit_hexVal hy]

theorem b16decode_total : ∀ (s : Bytes), s.length % 2 = 0 → (∀ c ∈ s, IsUpperHex c) →
    ∃ r, b16decode s = .ok r
  | [], _, _ => ⟨[], rfl⟩
  | [_], h, _ => by simp at h
  | x :: y :: rest, h, hh => by
    obtain ⟨a, ha⟩ := Option.isSome_iff_exists.1 ((hexVal_isSome_iff x).2 (hh x (by simp)))
    obtain ⟨b, hb⟩ := Option.isSome_iff_exists.1 ((hexVal_isSome_iff y).2 (hh y (by simp)))
    obtain ⟨r, hr⟩ := b16decode_total rest (by simp at h; omega)
      (fun c hc => hh c (by simp [hc]))
    exact ⟨UInt8.ofNat (a * 16 + b) :: r, by simp [b16decode, ha, hb, hr]⟩

theorem b16decode_error : ∀ (s : Bytes) (e : PyErr), b16decode s = .error e → e = .binasciiError
  | [], e, h => by simp [b16decode] at h
  | [_], e, h => by simp [b16decode] at h; exact h.symm
  | x :: y :: rest, e, h => by
    simp only [b16decode] at h
    split at h
    · split at h
      · cases h
      · rename_i e' he'
        injection h with h; subst h
        exact b16decode_error rest _ he'
    · injection h with h; exact h.symm

/-! ### `find` -/

theorem find_some_spec (pat : Bytes) : ∀ (d : Bytes) (n : Nat), find pat d = some n →
    n + pat.length ≤ d.length ∧ pat.isPrefixOf (d.drop n) = true ∧
    ∀ m < n, pat.isPrefixOf (d.drop m) = false := by
  intro d
  induction d with
  | nil =>
    intro n h
    simp only [find] at h
    split at h
    · rename_i hp; subst hp; injection h with h; subst h; simp
    · cases h
  | cons x xs ih =>
    intro n h
    simp only [find] at h
    split at h
    · rename_i hp
      injection h with h; subst h
      refine ⟨?_, by simpa using hp, by simp⟩
      have := List.IsPrefix.length_le (List.isPrefixOf_iff_prefix.1 hp)
      simpa using this
    · rename_i hp
      cases hf : find pat xs with
      | none => simp [hf] at h
      | some k =>
        simp only [hf, Option.map_some, Option.some.injEq] at h
        subst h
        obtain ⟨h1, h2, h3⟩ := ih k hf
        refine ⟨by simp; omega, by simpa using h2, ?_⟩
        intro m hm
        cases m with
        | zero => exact Bool.eq_false_iff.2 hp
        | succ m => simpa using h3 m (by omega)

theorem find_none_spec (pat : Bytes) : ∀ (d : Bytes), find pat d = none →
    ∀ m, m ≤ d.length → pat.isPrefixOf (d.drop m) = false := by
  intro d
  induction d with
  | nil =>
    intro h m hm
    simp only [find] at h
    split at h
    · cases h
    · rename_i hp
      simp only [List.length_nil, Nat.le_zero_eq] at hm
      subst hm
      cases pat with
      | nil => exact absurd rfl hp
      | cons a as => rfl
  | cons x xs ih =>
    intro h m hm
    simp only [find] at h
    split at h
    · cases h
    · rename_i hp
      cases m with
      | zero => exact Bool.eq_false_iff.2 hp
      | succ m =>
        cases hf : find pat xs with
        | none => simpa using ih hf m (by simpa using hm)
        | some k => simp [hf] at h

/-- The first occurrence does not move when data is appended. -/
theorem find_append_of_some (pat : Bytes) : ∀ (d c : Bytes) (n : Nat), find pat d = some n →
    find pat (d ++ c) = some n := by
  intro d
  induction d with
  | nil =>
    intro c n h
    simp only [find] at h
    split at h
    · rename_i hp; subst hp; injection h with h; subst h
      cases c <;> simp [find]
    · cases h
  | cons x xs ih =>
    intro c n h
    simp only [find] at h
    split at h
    · rename_i hp
      injection h with h; subst h
      simp only [List.cons_append, find]
      rw [if_pos]
      obtain ⟨t, ht⟩ := List.isPrefixOf_iff_prefix.1 hp
      apply List.isPrefixOf_iff_prefix.2
      exact ⟨t ++ c, by rw [← List.append_assoc, ht]; simp⟩
    · rename_i hp
      cases hf : find pat xs with
      | none => simp [hf] at h
      | some k =>
        simp only [hf, Option.map_some, Option.some.injEq] at h
        subst h
        simp only [List.cons_append, find]
        obtain ⟨h1, h2, h3⟩ := find_some_spec pat xs k hf
        rw [if_neg, ih c k hf]
        · rfl
        · intro hp'
          apply hp
          have hp'' := List.isPrefixOf_iff_prefix.1 hp'
          apply List.isPrefixOf_iff_prefix.2
          have hl : pat.length ≤ (x :: xs).length := by simp; omega
          have : pat <+: (x :: xs) ++ c := by simpa using hp''
          exact List.prefix_of_prefix_length_le this (List.prefix_append _ _) hl

/-- Finding a single byte that does not occur in the first part. -/
theorem find_single_append (b : UInt8) : ∀ (d c : Bytes), b ∉ d →
    find [b] (d ++ b :: c) = some d.length := by
  intro d
  induction d with
  | nil => intro c _; simp [find, List.isPrefixOf]
  | cons x xs ih =>
    intro c h
    simp only [List.mem_cons, not_or] at h
    simp only [List.cons_append, find]
    rw [if_neg, ih c h.2]
    · simp
    · simp [List.isPrefixOf, h.1]

theorem find_single_none (b : UInt8) : ∀ (d : Bytes), find [b] d = none ↔ b ∉ d := by
  intro d
  induction d with
  | nil => simp [find]
  | cons x xs ih =>
    simp only [find]
    by_cases hx : b = x
    · subst hx; simp [List.isPrefixOf]
    · simp [List.isPrefixOf, hx, ih]

/-- Finding a two-byte marker whose first byte does not occur before it. -/
theorem find_pair_append (a b : UInt8) : ∀ (d c : Bytes), a ∉ d →
    find [a, b] (d ++ a :: b :: c) = some d.length := by
  intro d
  induction d with
  | nil => intro c _; simp [find, List.isPrefixOf]
  | cons x xs ih =>
    intro c h
    simp only [List.mem_cons, not_or] at h
    simp only [List.cons_append, find]
    rw [if_neg, ih c h.2]
    · simp
    · simp [List.isPrefixOf, h.1]

/-! ### sums -/

theorem sumBytes_append (a b : Bytes) : sumBytes (a ++ b) = sumBytes a + sumBytes b := by
  induction a with
  | nil => simp [sumBytes]
  | cons x xs ih => simp [sumBytes, ih]; omega

theorem sumBytes_eq_sum (a : Bytes) : sumBytes a = (a.map UInt8.toNat).sum := by
  induction a with
  | nil => rfl
  | cons x xs ih => simp [sumBytes, ih]

theorem checksum_arith (c : Nat) :
    ((((c &&& 0xff) ^^^ 0xff) + 1) &&& 0xff) = (256 - c % 256) % 256 := by
  have h1 : c &&& 0xff = c % 256 := Nat.and_two_pow_sub_one_eq_mod c 8
  rw [h1]
  have : ∀ x : Fin 256, (((x.val ^^^ 0xff) + 1) &&& 0xff) = (256 - x.val) % 256 := by
    decide +kernel
  have := this ⟨c % 256, by omega⟩
  simpa using this

theorem cbusChecksum_toNat (m : Bytes) : (cbusChecksum m).toNat = (256 - sumBytes m % 256) % 256 := by
  unfold cbusChecksum
  simp only []
  rw [checksum_arith, toNat_ofNat_lt (by omega)]

theorem addChecksum_sum (m : Bytes) : sumBytes (addChecksum m) % 256 = 0 := by
  unfold addChecksum
  rw [sumBytes_append]
  simp only [sumBytes, cbusChecksum_toNat]
  omega

/-- The checksum test, as arithmetic. -/
theorem validateChecksum_append (m : Bytes) (l : UInt8) :
    validateChecksum (m ++ [l]) = .ok (decide (sumBytes (m ++ [l]) % 256 = 0)) := by
  unfold validateChecksum getRealChecksum
  simp only [List.getLast?_concat, List.dropLast_concat]
  congr 1
  have hl := l.toNat_lt
  have h1 : sumBytes (m ++ [l]) = sumBytes m + l.toNat := by
    rw [sumBytes_append]; simp [sumBytes]
  by_cases h : l = cbusChecksum m
  · have : l.toNat = (256 - sumBytes m % 256) % 256 := by rw [h, cbusChecksum_toNat]
    simp only [h, beq_self_eq_true, Bool.true_eq, decide_eq_true_eq]
    rw [← h]; omega
  · have hne : l.toNat ≠ (256 - sumBytes m % 256) % 256 := by
      rw [← cbusChecksum_toNat]; intro he; exact h (UInt8.toNat_inj.1 he)
    have : (l == cbusChecksum m) = false := by simpa using h
    rw [this, h1]
    simp only [Bool.false_eq, decide_eq_false_iff_not]
    omega

theorem validateChecksum_eq {m : Bytes} (h : m ≠ []) :
    validateChecksum m = .ok (decide (sumBytes m % 256 = 0)) := by
  have := validateChecksum_append m.dropLast (m.getLast h)
  rwa [List.dropLast_concat_getLast] at this

theorem validateChecksum_addChecksum (m : Bytes) : validateChecksum (addChecksum m) = .ok true := by
  have h : addChecksum m ≠ [] := by simp [addChecksum]
  rw [validateChecksum_eq h, addChecksum_sum]; rfl

@[simp] theorem addChecksum_dropLast (m : Bytes) : (addChecksum m).dropLast = m := by
  simp [addChecksum]

theorem sumBytes_set : ∀ (m : Bytes) (i : Nat) (h : i < m.length) (v : UInt8),
    sumBytes (m.set i v) + (m[i]).toNat = sumBytes m + v.toNat := by
  intro m
  induction m with
  | nil => intro i h; simp at h
  | cons x xs ih =>
    intro i h v
    cases i with
    | zero => simp [sumBytes]; omega
    | succ i =>
      simp only [List.set_cons_succ, sumBytes, List.getElem_cons_succ]
      have := ih i (by simpa using h) v
      omega

end CBus
