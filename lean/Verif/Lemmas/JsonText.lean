import Verif.Spec.JsonText
import Verif.Lemmas.Text

/-! # Lemmas about JSON texts -/

namespace CBus.Json
open CBus Spec.Json

theorem isWs_iff (c : Char) : isWs c = true ↔ c = ' ' ∨ c = '\t' ∨ c = '\n' ∨ c = '\r' := by
  simp [isWs, or_assoc]

theorem blank_iff (w : Str) : Blank w ↔ ∀ c ∈ w, isWs c = true := by
  unfold Blank
  constructor
  · intro h c hc; exact (isWs_iff c).2 (h c hc)
  · intro h c hc; exact (isWs_iff c).1 (h c hc)

theorem skip_blank {w : Str} (h : Blank w) (s : Str) : skip (w ++ s) = skip s := by
  rw [blank_iff] at h
  unfold skip
  induction w with
  | nil => rfl
  | cons c w ih =>
    rw [List.cons_append, List.dropWhile_cons, if_pos (h c List.mem_cons_self)]
    exact ih fun d hd => h d (List.mem_cons_of_mem _ hd)

theorem skip_cons {c : Char} (h : isWs c = false) (s : Str) : skip (c :: s) = c :: s := by
  simp [skip, h]

theorem skip_split (s : Str) : ∃ w, Blank w ∧ s = w ++ skip s := by
  refine ⟨s.takeWhile isWs, ?_, by rw [skip, List.takeWhile_append_dropWhile]⟩
  rw [blank_iff]
  intro c hc
  exact List.all_eq_true.1 (List.all_takeWhile (l := s) (p := isWs)) c hc

/-! ## Hexadecimal digits -/

instance (c : Char) (x : Nat) : Decidable (HexDigit c x) := by unfold HexDigit; infer_instance

theorem char_lt {P : Char → Prop} (h : ∀ n : Fin 128, P (Char.ofNat n.val)) (c : Char) (hc : c.toNat < 128) : P c := by
  have := h ⟨c.toNat, hc⟩
  rwa [Char.ofNat_toNat] at this

theorem hexDigit_lt {c : Char} {x : Nat} (h : HexDigit c x) : x < 16 ∧ c.toNat < 128 := by
  have hx : x < 16 := by
    rcases h with h | h <;> exact (List.getElem?_eq_some_iff.1 h).1
  refine ⟨hx, ?_⟩
  have : ∀ x : Fin 16, ∀ l ∈ ["0123456789abcdef".toList, "0123456789ABCDEF".toList], ∀ d ∈ l[x.val]?, d.toNat < 128 := by
    decide +kernel
  rcases h with h | h
  · exact this ⟨x, hx⟩ _ (by simp) c h
  · exact this ⟨x, hx⟩ _ (by simp) c h

theorem hexVal_lt {c : Char} {x : Nat} (h : hexVal c = some x) : x < 16 ∧ c.toNat < 128 := by
  unfold hexVal at h
  split at h
  · cases h; omega
  · split at h
    · cases h; omega
    · split at h
      · cases h; omega
      · cases h

theorem hexVal_iff (c : Char) (x : Nat) : hexVal c = some x ↔ HexDigit c x := by
  have key : ∀ n : Fin 128, ∀ x : Fin 16, (hexVal (Char.ofNat n.val) = some x.val ↔ HexDigit (Char.ofNat n.val) x.val) := by
    decide +kernel
  constructor
  · intro h
    obtain ⟨hx, hc⟩ := hexVal_lt h
    exact (char_lt (P := fun c => ∀ x : Fin 16, (hexVal c = some x.val ↔ HexDigit c x.val)) key c hc ⟨x, hx⟩).1 h
  · intro h
    obtain ⟨hx, hc⟩ := hexDigit_lt h
    exact (char_lt (P := fun c => ∀ x : Fin 16, (hexVal c = some x.val ↔ HexDigit c x.val)) key c hc ⟨x, hx⟩).2 h

theorem hex4_sound {s : Str} {n : Nat} {r : Str} (h : hex4 s = some (n, r)) : ∃ x, s = x ++ r ∧ Hex4 x n := by
  unfold hex4 at h
  split at h
  · rename_i a b c d r'
    split at h
    · rename_i w x y z h1 h2 h3 h4
      simp only [Option.some.injEq, Prod.mk.injEq] at h
      obtain ⟨rfl, rfl⟩ := h
      exact ⟨[a, b, c, d], rfl, a, b, c, d, w, x, y, z, rfl, (hexVal_iff _ _).1 h1, (hexVal_iff _ _).1 h2,
        (hexVal_iff _ _).1 h3, (hexVal_iff _ _).1 h4, by omega⟩
    · cases h
  · cases h

theorem hex4_complete {x : Str} {n : Nat} (h : Hex4 x n) (r : Str) : hex4 (x ++ r) = some (n, r) := by
  obtain ⟨a, b, c, d, w, x, y, z, rfl, h1, h2, h3, h4, rfl⟩ := h
  simp [hex4, (hexVal_iff _ _).2 h1, (hexVal_iff _ _).2 h2, (hexVal_iff _ _).2 h3, (hexVal_iff _ _).2 h4]
  omega

theorem hex4_lt {x : Str} {n : Nat} (h : Hex4 x n) : n < 65536 ∧ x.length = 4 := by
  obtain ⟨a, b, c, d, w, x, y, z, rfl, h1, h2, h3, h4, rfl⟩ := h
  have := (hexDigit_lt h1).1
  have := (hexDigit_lt h2).1
  have := (hexDigit_lt h3).1
  have := (hexDigit_lt h4).1
  exact ⟨by omega, rfl⟩

/-! ## Strings -/

theorem char_valid (c : Char) : c.toNat < 0xd800 ∨ (0xdfff < c.toNat ∧ c.toNat < 0x110000) := by
  have := c.valid
  simp [UInt32.isValidChar, Nat.isValidChar] at this
  exact this

theorem ofNat_valid {n : Nat} (h : n < 0xd800 ∨ (0xdfff < n ∧ n < 0x110000)) : (Char.ofNat n).toNat = n := by
  have : n.isValidChar := h
  rw [Char.ofNat, dif_pos this]
  rfl

theorem simpleEscape_iff (e c : Char) : simpleEscape e = some c ↔ (e, c.toNat) ∈ escapes := by
  have inj : ∀ c d : Char, c.toNat = d.toNat ↔ c = d := fun c d => ⟨Char.toNat_inj.1, fun h => h ▸ rfl⟩
  have h8 : (Char.ofNat 8).toNat = 8 := rfl
  have h12 : (Char.ofNat 12).toNat = 12 := rfl
  constructor
  · intro h
    unfold simpleEscape at h
    repeat' split at h
    all_goals first | (cases h; subst_vars; decide) | cases h
  · intro h
    have h' : ∀ p ∈ escapes, simpleEscape p.1 = some (Char.ofNat p.2) := by decide +kernel
    have := h' _ h
    simpa [Char.ofNat_toNat] using this

theorem stringChar_sound (env : JEnv) {s : Str} {c : Char} {r : Str} (hq : s.head? ≠ some '"')
    (h : stringChar env s = some (c, r)) :
    r.length < s.length ∧ ∀ t u, r = t ++ '"' :: u → ∀ x, StringText env t x →
      ∃ t', s = t' ++ '"' :: u ∧ StringText env t' (c :: x) := by
  unfold stringChar at h
  split at h
  · cases h
  · rename_i d r'
    split at h
    · rename_i hd
      subst hd
      split at h
      · cases h
      · rename_i e r₂
        split at h
        · rename_i he
          subst he
          unfold unicodeEscape at h
          split at h
          · cases h
          · rename_i n r₃ h4
            obtain ⟨x₁, rfl, hx⟩ := hex4_sound h4
            have hn := hex4_lt hx
            split at h
            · rename_i hh
              simp only [isHigh, Bool.and_eq_true, decide_eq_true_eq] at hh
              split at h
              · rename_i r₄
                split at h
                · cases h
                · rename_i m r₅ h5
                  obtain ⟨x₂, rfl, hy⟩ := hex4_sound h5
                  have hm := hex4_lt hy
                  split at h
                  · rename_i hl
                    simp only [isLow, Bool.and_eq_true, decide_eq_true_eq] at hl
                    simp only [Option.some.injEq, Prod.mk.injEq] at h
                    obtain ⟨rfl, rfl⟩ := h
                    refine ⟨by simp; omega, ?_⟩
                    rintro t u rfl x hx'
                    have hc : (Char.ofNat (0x10000 + 0x400 * (n - 0xd800) + (m - 0xdc00))).toNat =
                        0x10000 + 0x400 * (n - 0xd800) + (m - 0xdc00) := ofNat_valid (by omega)
                    refine ⟨'\\' :: 'u' :: (x₁ ++ '\\' :: 'u' :: (x₂ ++ t)), by simp, .pair x₁ x₂ _ t x ?_ ?_ ?_ hx'⟩
                    · rw [hc]; omega
                    · rw [hc]
                      have : 0xd800 + (0x10000 + 0x400 * (n - 0xd800) + (m - 0xdc00) - 0x10000) / 0x400 = n := by omega
                      rwa [this]
                    · rw [hc]
                      have : 0xdc00 + (0x10000 + 0x400 * (n - 0xd800) + (m - 0xdc00) - 0x10000) % 0x400 = m := by omega
                      rwa [this]
                  · rename_i hl
                    simp only [isLow, Bool.and_eq_true, decide_eq_true_eq] at hl
                    simp only [Option.some.injEq, Prod.mk.injEq] at h
                    obtain ⟨rfl, rfl⟩ := h
                    refine ⟨by simp; omega, ?_⟩
                    intro t u ht x hx'
                    refine ⟨'\\' :: 'u' :: (x₁ ++ t), by simp [ht], .lone x₁ n t x hx (by omega) ?_ hx'⟩
                    rintro - ⟨y, m', r', rfl, hy', h6, h7⟩
                    have := hex4_complete hy' (r' ++ '"' :: u)
                    simp only [List.cons_append, List.cons.injEq, true_and, List.append_assoc] at ht
                    rw [← ht, h5] at this
                    simp only [Option.some.injEq, Prod.mk.injEq] at this
                    omega
              · rename_i hr
                simp only [Option.some.injEq, Prod.mk.injEq] at h
                obtain ⟨rfl, rfl⟩ := h
                refine ⟨by simp; omega, ?_⟩
                rintro t u rfl x hx'
                refine ⟨'\\' :: 'u' :: (x₁ ++ t), by simp, .lone x₁ n t x hx (by omega) ?_ hx'⟩
                rintro - ⟨y, m', r', rfl, -⟩
                exact hr _ rfl
            · rename_i hh
              simp only [isHigh, Bool.and_eq_true, decide_eq_true_eq] at hh
              split at h
              · rename_i hl
                simp only [isLow, Bool.and_eq_true, decide_eq_true_eq] at hl
                simp only [Option.some.injEq, Prod.mk.injEq] at h
                obtain ⟨rfl, rfl⟩ := h
                refine ⟨by simp; omega, ?_⟩
                rintro t u rfl x hx'
                exact ⟨'\\' :: 'u' :: (x₁ ++ t), by simp, .lone x₁ n t x hx (by omega) (by omega) hx'⟩
              · rename_i hl
                simp only [isLow, Bool.and_eq_true, decide_eq_true_eq] at hl
                simp only [Option.some.injEq, Prod.mk.injEq] at h
                obtain ⟨rfl, rfl⟩ := h
                refine ⟨by simp; omega, ?_⟩
                rintro t u rfl x hx'
                refine ⟨'\\' :: 'u' :: (x₁ ++ t), by simp, .unicode x₁ _ t x ?_ hx'⟩
                rwa [ofNat_valid (by omega)]
        · cases he : simpleEscape e with
          | none => simp [he] at h
          | some c' =>
            simp only [he, Option.map_some, Option.some.injEq, Prod.mk.injEq] at h
            obtain ⟨rfl, rfl⟩ := h
            refine ⟨by simp; omega, ?_⟩
            rintro t u rfl x hx'
            exact ⟨'\\' :: e :: t, by simp, .escape e c' t x ((simpleEscape_iff _ _).1 he) hx'⟩
    · rename_i hd
      split at h
      · cases h
      · simp only [Option.some.injEq, Prod.mk.injEq] at h
        obtain ⟨rfl, rfl⟩ := h
        refine ⟨by simp, ?_⟩
        rintro t u rfl x hx'
        exact ⟨d :: t, by simp, .plain d t x (by omega) (by simpa using hq) hd hx'⟩

theorem scanString_sound (env : JEnv) : ∀ (f : Nat) (s x r : Str), scanString env f s = some (x, r) →
    ∃ t, s = t ++ '"' :: r ∧ StringText env t x
  | 0, s, x, r, h => by cases h
  | f + 1, s, x, r, h => by
    unfold scanString at h
    split at h
    · rename_i hs
      simp only [Option.some.injEq, Prod.mk.injEq] at h
      obtain ⟨rfl, rfl⟩ := h
      cases s with
      | nil => cases hs
      | cons c s =>
        simp at hs
        exact ⟨[], by simp [hs], .nil⟩
    · rename_i hs
      split at h
      · cases h
      · rename_i c r₁ hc
        split at h
        · cases h
        · rename_i t r₂ ht
          simp only [Option.some.injEq, Prod.mk.injEq] at h
          obtain ⟨rfl, rfl⟩ := h
          obtain ⟨u, hu, hu'⟩ := scanString_sound env f _ _ _ ht
          exact (stringChar_sound env hs hc).2 u _ hu _ hu'

theorem scanString_complete (env : JEnv) {t x : Str} (h : StringText env t x) :
    ∀ (f : Nat), t.length < f → ∀ r, scanString env f (t ++ '"' :: r) = some (x, r) := by
  have step : ∀ (f : Nat) (t t' x : Str) (c : Char) (r : Str), (t ++ '"' :: r).head? ≠ some '"' →
      stringChar env (t ++ '"' :: r) = some (c, t' ++ '"' :: r) → scanString env f (t' ++ '"' :: r) = some (x, r) →
      scanString env (f + 1) (t ++ '"' :: r) = some (c :: x, r) := by
    intro f t t' x c r h1 h2 h3
    rw [scanString, if_neg h1, h2]
    simp only [h3]
  induction h with
  | nil =>
    intro f hf r
    obtain ⟨f, rfl⟩ : ∃ g, f = g + 1 := ⟨f - 1, by simp at hf; omega⟩
    simp [scanString]
  | plain c t s h hq hb ht ih =>
    intro f hf r
    obtain ⟨f, rfl⟩ : ∃ g, f = g + 1 := ⟨f - 1, by omega⟩
    refine step f _ t _ _ _ (by simpa using hq) ?_ (ih f (by simp at hf; omega) r)
    simp [stringChar, hb]
    omega
  | escape e c t s h ht ih =>
    intro f hf r
    obtain ⟨f, rfl⟩ : ∃ g, f = g + 1 := ⟨f - 1, by omega⟩
    refine step f _ t _ _ _ (by simp) ?_ (ih f (by simp at hf; omega) r)
    have hu : e ≠ 'u' := by
      rintro rfl
      simp [escapes] at h
    simp [stringChar, hu, (simpleEscape_iff _ _).2 h]
  | unicode x c t s h ht ih =>
    intro f hf r
    obtain ⟨f, rfl⟩ : ∃ g, f = g + 1 := ⟨f - 1, by omega⟩
    refine step f _ t _ _ _ (by simp) ?_ (ih f (by simp at hf; omega) r)
    have hv := char_valid c
    have := hex4_lt h
    have h1 : isHigh c.toNat = false := by simp [isHigh]; omega
    have h2 : isLow c.toNat = false := by simp [isLow]; omega
    simp [stringChar, unicodeEscape, hex4_complete h, h1, h2, Char.ofNat_toNat]
  | pair x y c t s h hx hy ht ih =>
    intro f hf r
    obtain ⟨f, rfl⟩ : ∃ g, f = g + 1 := ⟨f - 1, by omega⟩
    refine step f _ t _ _ _ (by simp) ?_ (ih f (by simp at hf; omega) r)
    have hv := char_valid c
    have h1 : isHigh (0xd800 + (c.toNat - 0x10000) / 0x400) = true := by simp [isHigh]; omega
    have h2 : isLow (0xdc00 + (c.toNat - 0x10000) % 0x400) = true := by simp [isLow]; omega
    have e : 0x10000 + 0x400 * (0xd800 + (c.toNat - 0x10000) / 0x400 - 0xd800) +
        (0xdc00 + (c.toNat - 0x10000) % 0x400 - 0xdc00) = c.toNat := by omega
    simp only [List.cons_append, List.append_assoc, stringChar, if_true, unicodeEscape, hex4_complete hx, h1,
      hex4_complete hy, h2, e, Char.ofNat_toNat]
  | lone x n t s hx h hn ht ih =>
    intro f hf r
    obtain ⟨f, rfl⟩ : ∃ g, f = g + 1 := ⟨f - 1, by omega⟩
    refine step f _ t _ _ _ (by simp) ?_ (ih f (by simp at hf; omega) r)
    simp only [List.cons_append, List.append_assoc, stringChar, if_true, unicodeEscape, hex4_complete hx]
    by_cases hh : n < 0xdc00
    · have h1 : isHigh n = true := by simp [isHigh]; omega
      have := hn hh
      rw [if_pos h1]
      split
      · rename_i r₂ he
        have hr : ∃ y m r', t = '\\' :: 'u' :: (y ++ r') ∧ Hex4 y m := by
          cases ht with
          | nil => simp at he
          | plain c t s h hq hb ht => simp at he; exact absurd he.1 hb
          | escape e c t s h ht =>
            simp at he
            have : e ≠ 'u' := by
              rintro rfl
              simp [escapes] at h
            exact absurd he.1 this
          | unicode x c t s h ht => exact ⟨_, _, _, rfl, h⟩
          | pair x y c t s h hx hy ht => exact ⟨_, _, _, rfl, hx⟩
          | lone x n t s hx h hn ht => exact ⟨_, _, _, rfl, hx⟩
        obtain ⟨y, m, r', rfl, hy⟩ := hr
        simp only [List.cons_append, List.cons.injEq, true_and, List.append_assoc] at he
        have h2 : isLow m = false := by
          cases hl : isLow m with
          | false => rfl
          | true =>
            simp only [isLow, Bool.and_eq_true, decide_eq_true_eq] at hl
            exact absurd ⟨y, m, r', rfl, hy, hl.1, hl.2⟩ this
        rw [← he, hex4_complete hy]
        simp [h2]
      · rfl
    · have h1 : isHigh n = false := by simp [isHigh]; omega
      have h2 : isLow n = true := by simp [isLow]; omega
      simp [h1, h2]

/-! ## Numbers -/

theorem isDigit_iff (c : Char) : isDigit c = true ↔ 48 ≤ c.toNat ∧ c.toNat ≤ 57 := by simp [isDigit]

/-- What follows does not continue a row of digits. -/
def NoDigit (r : Str) : Prop := ∀ c, r.head? = some c → isDigit c = false

theorem takeWhile_digits {d : Str} (h : ∀ c ∈ d, isDigit c = true) {r : Str} (hr : NoDigit r) :
    (d ++ r).takeWhile isDigit = d ∧ (d ++ r).dropWhile isDigit = r := by
  induction d with
  | nil =>
    cases r with
    | nil => exact ⟨rfl, rfl⟩
    | cons c r =>
      have := hr c rfl
      simp [this]
  | cons c d ih =>
    have := h c List.mem_cons_self
    simp [this, ih fun x hx => h x (List.mem_cons_of_mem _ hx)]

theorem digits_split (s : Str) : ∃ d r, s = d ++ r ∧ s.takeWhile isDigit = d ∧ s.dropWhile isDigit = r ∧
    (∀ c ∈ d, isDigit c = true) ∧ NoDigit r := by
  refine ⟨_, _, List.takeWhile_append_dropWhile.symm, rfl, rfl, ?_, ?_⟩
  · intro c hc
    exact List.all_eq_true.1 (List.all_takeWhile (l := s) (p := isDigit)) c hc
  · intro c hc
    have := List.head?_dropWhile_not isDigit s
    rw [hc] at this
    simpa using this

theorem digitsValue_append (s : Str) (c : Char) : digitsValue (s ++ [c]) = 10 * digitsValue s + (c.toNat - 48) := by
  simp [digitsValue, List.foldl_append]

theorem digitsValue_natStr (n : Nat) : digitsValue (natStr n) = n := by
  induction n using Nat.strongRecOn with
  | _ n ih =>
    rw [natStr_step]
    split
    · rename_i h
      simp [digitsValue, digitChar_toNat n h]
    · rename_i h
      rw [digitsValue_append, ih (n / 10) (by omega), digitChar_toNat _ (by omega)]
      omega

theorem foldl_ge (s : Str) : ∀ k : Nat, k ≤ s.foldl (fun n c => 10 * n + (c.toNat - 48)) k := by
  induction s with
  | nil => intro k; exact Nat.le_refl k
  | cons c s ih =>
    intro k
    rw [List.foldl_cons]
    exact Nat.le_trans (by omega) (ih _)

theorem natStr_digitsValue (c : Char) (hc : c ≠ '0') : ∀ (n : Nat) (s : Str), s.length = n →
    (∀ d ∈ c :: s, isDigit d = true) → natStr (digitsValue (c :: s)) = c :: s := by
  have h0 : c.toNat ≠ 48 := fun h => hc (Char.toNat_inj.1 h)
  intro n
  induction n with
  | zero =>
    intro s hs h
    obtain rfl := List.length_eq_zero_iff.1 hs
    have h1 := (isDigit_iff c).1 (h c (by simp))
    have : digitsValue [c] = c.toNat - 48 := by simp [digitsValue]
    rw [this, natStr_step, if_pos (by omega)]
    congr 1
    apply Char.toNat_inj.1
    rw [digitChar_toNat _ (by omega)]
    omega
  | succ n ih =>
    intro s hs h
    obtain ⟨s', d, rfl⟩ : ∃ s' d, s = s' ++ [d] :=
      ⟨s.dropLast, s.getLast (by intro e; simp [e] at hs), (List.dropLast_concat_getLast _).symm⟩
    have h1 := (isDigit_iff d).1 (h d (by simp))
    have hc1 := (isDigit_iff c).1 (h c (by simp))
    rw [← List.cons_append, digitsValue_append]
    have hp : 1 ≤ digitsValue (c :: s') := by
      unfold digitsValue
      rw [List.foldl_cons]
      exact Nat.le_trans (by omega) (foldl_ge s' _)
    rw [natStr_step, if_neg (by omega)]
    have e1 : (10 * digitsValue (c :: s') + (d.toNat - 48)) / 10 = digitsValue (c :: s') := by omega
    have e2 : (10 * digitsValue (c :: s') + (d.toNat - 48)) % 10 = d.toNat - 48 := by omega
    rw [e1, e2, ih s' (by simpa using hs) (fun x hx => h x (by
      rcases List.mem_cons.1 hx with rfl | hx
      · simp
      · simp [hx]))]
    congr 2
    apply Char.toNat_inj.1
    rw [digitChar_toNat _ (by omega)]
    omega

theorem toString_natStr (n : Nat) : (toString n).toList = natStr n := by
  rw [natStr_eq]; exact Nat.toList_repr

theorem scanInt_sound {s : Str} {neg : Bool} {ds r : Str} (h : scanInt s = some (neg, ds, r)) :
    s = signText neg ++ (ds ++ r) ∧ ds = natStr (digitsValue ds) := by
  unfold scanInt at h
  simp only at h
  have hs : s = signText (decide (s.head? = some '-')) ++ (if s.head? = some '-' then s.drop 1 else s) := by
    cases s with
    | nil => rfl
    | cons c s =>
      by_cases hc : c = '-'
      · subst hc; rfl
      · simp [signText, hc]
  split at h
  · cases h
  · rename_i c r' he
    rw [he] at hs
    split at h
    · rename_i hc
      subst hc
      simp only [Option.some.injEq, Prod.mk.injEq] at h
      obtain ⟨rfl, rfl, rfl⟩ := h
      exact ⟨hs, by decide +kernel⟩
    · rename_i hc
      split at h
      · rename_i hd
        simp only [Option.some.injEq, Prod.mk.injEq] at h
        obtain ⟨rfl, rfl, rfl⟩ := h
        obtain ⟨d, r₂, -, h1, h2, h3, -⟩ := digits_split r'
        refine ⟨?_, ?_⟩
        · rw [List.cons_append, List.takeWhile_append_dropWhile]; exact hs
        · rw [h1]
          exact (natStr_digitsValue c hc _ d rfl (by simpa [hd] using h3)).symm
      · cases h

theorem natStr_cases (n : Nat) : natStr n = ['0'] ∨ ∃ c s, natStr n = c :: s ∧ c ≠ '0' := by
  induction n using Nat.strongRecOn with
  | _ n ih =>
    rw [natStr_step]
    split
    · rename_i h
      by_cases h0 : n = 0
      · subst h0; exact .inl (by decide)
      · refine .inr ⟨_, [], rfl, fun e => ?_⟩
        have := digitChar_toNat n h
        rw [e] at this
        have e0 : ('0' : Char).toNat = 48 := rfl
        omega
    · rename_i h
      right
      rcases ih (n / 10) (by omega) with e | ⟨c, s, e, hc⟩
      · have := digitsValue_natStr (n / 10)
        rw [e] at this
        have e0 : digitsValue ['0'] = 0 := by decide +kernel
        omega
      · exact ⟨c, s ++ [digitChar (n % 10)], by rw [e]; rfl, hc⟩

theorem scanInt_complete (neg : Bool) (n : Nat) {r : Str} (hr : NoDigit r) :
    scanInt (signText neg ++ (natStr n ++ r)) = some (neg, natStr n, r) := by
  have hm : ∀ c, (natStr n ++ r).head? = some c → isDigit c = true := by
    intro c hc
    obtain ⟨d, s, e⟩ := List.exists_cons_of_ne_nil (natStr_ne_nil n)
    rw [e] at hc
    simp at hc
    subst hc
    exact (isDigit_iff _).2 (natStr_digit n d (by rw [e]; simp))
  have hne : (natStr n ++ r).head? ≠ some '-' := by
    intro h
    have := hm _ h
    revert this
    decide
  have h1 : (decide ((signText neg ++ (natStr n ++ r)).head? = some '-') = neg) ∧
      (if (signText neg ++ (natStr n ++ r)).head? = some '-' then (signText neg ++ (natStr n ++ r)).drop 1
        else signText neg ++ (natStr n ++ r)) = natStr n ++ r := by
    cases neg
    · simp only [signText, Bool.false_eq_true, if_false, List.nil_append, hne, decide_false, and_self]
    · simp [signText]
  unfold scanInt
  simp only
  rw [h1.2, h1.1]
  rcases natStr_cases n with e | ⟨c, s, e, hc⟩
  · rw [e]; simp
  · rw [e]
    have hd : ∀ x ∈ c :: s, isDigit x = true := fun x hx => (isDigit_iff _).2 (natStr_digit n x (by rw [e]; exact hx))
    have := takeWhile_digits (d := s) (fun x hx => hd x (List.mem_cons_of_mem _ hx)) hr
    simp [hc, hd c List.mem_cons_self, this]

theorem digits_iff (d : Str) : Digits d ↔ d ≠ [] ∧ ∀ c ∈ d, isDigit c = true := by
  unfold Digits
  have e0 : ('0' : Char).toNat = 48 := rfl
  have e9 : ('9' : Char).toNat = 57 := rfl
  simp only [e0, e9, isDigit_iff]

theorem scanFrac_sound (s : Str) : s = (scanFrac s).1 ++ (scanFrac s).2 ∧ Fraction (scanFrac s).1 := by
  unfold scanFrac
  split
  · rename_i r
    split
    · exact ⟨rfl, .inl rfl⟩
    · rename_i h
      refine ⟨by simp, .inr ⟨_, rfl, (digits_iff _).2 ⟨h, ?_⟩⟩⟩
      obtain ⟨d, r₂, -, h1, -, h3, -⟩ := digits_split r
      rwa [h1]
  · exact ⟨rfl, .inl rfl⟩

theorem scanExp_sound (s : Str) : s = (scanExp s).1 ++ (scanExp s).2 ∧ Exponent (scanExp s).1 := by
  unfold scanExp
  split
  · exact ⟨rfl, .inl rfl⟩
  · rename_i e r
    split
    · rename_i he
      simp only
      generalize hsg : (if r.head? = some '+' ∨ r.head? = some '-' then r.take 1 else []) = sg
      split
      · exact ⟨rfl, .inl rfl⟩
      · rename_i h
        have h1 : r = sg ++ r.drop sg.length ∧ (sg = [] ∨ sg = ['+'] ∨ sg = ['-']) := by
          cases r with
          | nil => simp at hsg; subst hsg; exact ⟨rfl, .inl rfl⟩
          | cons c r =>
            split at hsg
            · rename_i hc
              subst hsg
              simp at hc
              refine ⟨rfl, .inr ?_⟩
              simpa using hc
            · subst hsg; exact ⟨rfl, .inl rfl⟩
        refine ⟨?_, .inr ⟨e, sg, (r.drop sg.length).takeWhile isDigit, rfl, he, h1.2, (digits_iff _).2 ⟨h, ?_⟩⟩⟩
        · simp only [List.cons_append, List.append_assoc, List.takeWhile_append_dropWhile]
          rw [← h1.1]
        · obtain ⟨d, r₂, -, h1, -, h3, -⟩ := digits_split (r.drop sg.length)
          rwa [h1]
    · exact ⟨rfl, .inl rfl⟩

/-- What follows a value: nothing, white space, or the end of an item or a member. -/
def Follow (r : Str) : Prop := ∀ c, r.head? = some c → isWs c = true ∨ c = ',' ∨ c = ']' ∨ c = '}'

theorem Follow.char {r : Str} (h : Follow r) {c : Char} (hc : r.head? = some c) :
    isDigit c = false ∧ c ≠ '.' ∧ c ≠ 'e' ∧ c ≠ 'E' := by
  rcases h c hc with h | rfl | rfl | rfl
  · rcases (isWs_iff c).1 h with rfl | rfl | rfl | rfl <;> decide
  · decide
  · decide
  · decide

theorem scanFrac_complete {f r : Str} (hf : Fraction f) (hn : NoDigit r) (hd : r.head? ≠ some '.') :
    scanFrac (f ++ r) = (f, r) := by
  rcases hf with rfl | ⟨d, rfl, hd'⟩
  · unfold scanFrac
    split
    · rename_i he
      simp only [List.nil_append] at he
      rw [he] at hd
      exact absurd rfl hd
    · rfl
  · rw [digits_iff] at hd'
    have := takeWhile_digits hd'.2 hn
    simp only [List.cons_append, scanFrac, this, if_neg hd'.1]

theorem scanExp_complete {e r : Str} (he : Exponent e) (hr : Follow r) : scanExp (e ++ r) = (e, r) := by
  rcases he with rfl | ⟨x, sg, d, rfl, hx, hs, hd⟩
  · unfold scanExp
    cases r with
    | nil => rfl
    | cons c r =>
      have := hr.char (c := c) rfl
      simp [this.2.2]
  · rw [digits_iff] at hd
    have ht := takeWhile_digits hd.2 (r := r) fun c hc => (hr.char hc).1
    obtain ⟨c, d', rfl⟩ := List.exists_cons_of_ne_nil hd.1
    have hc : isDigit c = true := hd.2 c List.mem_cons_self
    have hcp : c ≠ '+' ∧ c ≠ '-' := by
      constructor <;> rintro rfl <;> revert hc <;> decide
    unfold scanExp
    simp only [List.cons_append, List.append_assoc]
    rw [if_pos hx]
    rcases hs with rfl | rfl | rfl
    · simp only [List.nil_append, List.head?_cons, Option.some.injEq, hcp.1, hcp.2, or_self, if_false,
        List.length_nil, List.drop_zero]
      rw [List.cons_append] at ht
      rw [ht.1, ht.2]
      simp
    · rw [List.cons_append] at ht
      simp [ht]
    · rw [List.cons_append] at ht
      simp [ht]

theorem scanNumber_sound (env : JEnv) {s : Str} {x : PyNum} {r : Str} (h : scanNumber env s = some (x, r)) :
    ∃ t, s = t ++ r ∧ NumberText env t x := by
  unfold scanNumber at h
  split at h
  · cases h
  · rename_i neg ds r₁ hi
    obtain ⟨h1, h2⟩ := scanInt_sound hi
    obtain ⟨h3, h4⟩ := scanFrac_sound r₁
    obtain ⟨h5, h6⟩ := scanExp_sound (scanFrac r₁).2
    simp only at h
    split at h
    · rename_i he
      simp only [Option.some.injEq, Prod.mk.injEq] at h
      obtain ⟨rfl, rfl⟩ := h
      rw [he.1, List.nil_append] at h3
      rw [he.2, List.nil_append] at h5
      refine ⟨signText neg ++ ds, ?_, ?_⟩
      · rw [List.append_assoc, ← h5, ← h3]; exact h1
      · rw [h2]
        generalize digitsValue ds = n
        rw [digitsValue_natStr, ← toString_natStr]
        cases neg
        · exact .nat n
        · exact .neg n
    · rename_i he
      simp only [Option.some.injEq, Prod.mk.injEq] at h
      obtain ⟨rfl, rfl⟩ := h
      refine ⟨signText neg ++ ds ++ (scanFrac r₁).1 ++ (scanExp (scanFrac r₁).2).1, ?_, ?_⟩
      · rw [List.append_assoc, ← h5, List.append_assoc, ← h3, List.append_assoc]; exact h1
      · rw [h2]
        rw [← toString_natStr]
        refine .real (signText neg) _ _ _ ?_ h4 h6 ?_
        · cases neg
          · exact .inl rfl
          · exact .inr rfl
        · by_cases hf : (scanFrac r₁).1 = []
          · exact .inr fun e => he ⟨hf, e⟩
          · exact .inl hf

theorem fraction_noDigit {f r : Str} (hf : Fraction f) (hr : NoDigit r) : NoDigit (f ++ r) := by
  rcases hf with rfl | ⟨d, rfl, -⟩
  · exact hr
  · intro c hc
    simp at hc
    subst hc
    decide

theorem exponent_head {e r : Str} (he : Exponent e) (hr : Follow r) : NoDigit (e ++ r) ∧ (e ++ r).head? ≠ some '.' := by
  rcases he with rfl | ⟨x, sg, d, rfl, hx, -⟩
  · exact ⟨fun c hc => (hr.char hc).1, fun h => (hr.char h).2.1 rfl⟩
  · refine ⟨fun c hc => ?_, ?_⟩
    · simp at hc
      subst hc
      rcases hx with rfl | rfl <;> decide
    · rcases hx with rfl | rfl <;> simp

theorem scanNumber_complete (env : JEnv) {t : Str} {x : PyNum} (h : NumberText env t x) {r : Str} (hr : Follow r) :
    scanNumber env (t ++ r) = some (x, r) := by
  have key : ∀ (neg : Bool) (n : Nat) (f e : Str), Fraction f → Exponent e →
      scanInt (signText neg ++ natStr n ++ f ++ e ++ r) = some (neg, natStr n, f ++ (e ++ r)) ∧
      scanFrac (f ++ (e ++ r)) = (f, e ++ r) ∧ scanExp (e ++ r) = (e, r) := by
    intro neg n f e hf he
    obtain ⟨h1, h2⟩ := exponent_head he hr
    refine ⟨?_, scanFrac_complete hf h1 h2, scanExp_complete he hr⟩
    have := scanInt_complete neg n (fraction_noDigit hf h1)
    simpa using this
  cases h with
  | nat n =>
    obtain ⟨h1, h2, h3⟩ := key false n [] [] (.inl rfl) (.inl rfl)
    rw [toString_natStr]
    simp only [signText, Bool.false_eq_true, if_false, List.nil_append, List.append_nil] at h1 h2 h3
    simp only [scanNumber, h1, h2, h3, and_self, if_true, digitsValue_natStr, Bool.false_eq_true, if_false]
  | neg n =>
    obtain ⟨h1, h2, h3⟩ := key true n [] [] (.inl rfl) (.inl rfl)
    rw [toString_natStr]
    simp only [signText, if_true, List.nil_append, List.append_nil, List.cons_append] at h1 h2 h3
    simp only [List.cons_append, scanNumber, h1, h2, h3, and_self, if_true, digitsValue_natStr]
  | real sign n f e hs hf he h =>
    obtain ⟨neg, rfl⟩ : ∃ neg, sign = signText neg := by
      rcases hs with rfl | rfl
      · exact ⟨false, rfl⟩
      · exact ⟨true, rfl⟩
    obtain ⟨h1, h2, h3⟩ := key neg n f e hf he
    rw [toString_natStr]
    have hne : ¬ (f = [] ∧ e = []) := by
      rintro ⟨rfl, rfl⟩
      simp at h
    simp only [scanNumber, h1, h2, h3, hne, if_false]

end CBus.Json
