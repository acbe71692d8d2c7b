import Verif.Spec.Number
import Verif.Model.Dump
import Verif.Lemmas.Text

/-! # Numbers and white space in a text (C96) -/

namespace CBus.Props
open CBus CBus.Spec

theorem trimmed_iff (blank : Char → Prop) (f : Char → Bool) (hf : ∀ c, f c = true ↔ blank c) (s t : Str) :
    Trimmed blank s t ↔ t = ((s.dropWhile f).reverse.dropWhile f).reverse := by
  have head : ∀ l : Str, ∀ c, (l.dropWhile f).head? = some c → ¬ blank c := by
    intro l
    induction l with
    | nil => intro c h; cases h
    | cons x l ih =>
      intro c h
      rw [List.dropWhile_cons] at h
      split at h
      · exact ih c h
      · rename_i hx
        injection h with h
        subst h
        exact fun hb => hx ((hf _).2 hb)
  have decomp : ∀ l : Str, ∃ a, l = a ++ l.dropWhile f ∧ ∀ c ∈ a, blank c := by
    intro l
    refine ⟨l.takeWhile f, (List.takeWhile_append_dropWhile).symm, fun c hc => (hf c).1 ?_⟩
    have := List.all_takeWhile (p := f) (l := l)
    exact List.all_eq_true.1 this c hc
  have drop : ∀ a l : Str, (∀ c ∈ a, blank c) → (∀ c, l.head? = some c → ¬ blank c) → (a ++ l).dropWhile f = l := by
    intro a l ha hl
    induction a with
    | nil =>
      cases l with
      | nil => rfl
      | cons x l =>
        have : ¬ f x = true := fun h => hl x rfl ((hf x).1 h)
        simp [List.dropWhile_cons, this]
    | cons x a ih =>
      have : f x = true := (hf x).2 (ha x (by simp))
      simp only [List.cons_append, List.dropWhile_cons, this, if_true]
      exact ih fun c hc => ha c (List.mem_cons_of_mem _ hc)
  constructor
  · rintro ⟨a, b, rfl, ha, hb, h1, h2⟩
    by_cases ht : t = []
    · subst ht
      have : (a ++ [] ++ b).dropWhile f = [] := by
        have := drop (a ++ b) [] (fun c hc => (List.mem_append.1 hc).elim (ha c) (hb c))
          (by intro c h; cases h)
        simpa using this
      rw [this]; rfl
    · rw [List.append_assoc, drop a (t ++ b) ha (by
        intro c hc
        cases t with
        | nil => exact absurd rfl ht
        | cons x t => exact h1 c hc)]
      rw [List.reverse_append, drop b.reverse t.reverse (by simpa using hb) (by simpa using h2), List.reverse_reverse]
  · rintro rfl
    obtain ⟨a, e1, ha⟩ := decomp s
    obtain ⟨b, e2, hb⟩ := decomp (s.dropWhile f).reverse
    refine ⟨a, b.reverse, ?_, ha, by simpa using hb, ?_, ?_⟩
    · rw [List.append_assoc, ← List.reverse_append, ← e2, List.reverse_reverse]; exact e1
    · intro c hc
      apply head s c
      have : s.dropWhile f = ((s.dropWhile f).reverse.dropWhile f).reverse ++ b.reverse := by
        rw [← List.reverse_append, ← e2, List.reverse_reverse]
      rw [this]
      cases hl : ((s.dropWhile f).reverse.dropWhile f).reverse with
      | nil => rw [hl] at hc; cases hc
      | cons x l => rw [hl] at hc; exact hc
    · intro c hc
      rw [List.getLast?_reverse] at hc
      exact head _ c hc

theorem numberBlank_iff (u : UniTable) (c : Char) : u.intSpace c = true ↔ NumberBlank u c := by
  unfold UniTable.intSpace NumberBlank
  simp only [List.mem_cons, List.not_mem_nil, or_false]
  by_cases h : c.toNat < 128
  · simp [h]; omega
  · have h1 : 128 ≤ c.toNat := by omega
    simp only [h, if_false, h1, true_and]
    constructor
    · exact .inr
    · rintro (h' | h')
      · omega
      · exact h'

theorem textBlank_iff (u : UniTable) (c : Char) : u.isSpace c = true ↔ TextBlank u c := by
  unfold TextBlank
  simp only [List.mem_cons, List.not_mem_nil, or_false]
  by_cases h : c.toNat < 128
  · rw [u.ascii_space c h]
    unfold asciiSpace
    simp; omega
  · constructor
    · intro h'; exact .inr ⟨by omega, h'⟩
    · rintro (h' | h')
      · omega
      · exact h'.2

/-- C96: `strip` removes exactly the white space at both ends of a text, which in ASCII
are the ten characters of `TextBlank`. -/
theorem C96_strip (u : UniTable) (s t : Str) : u.strip s = t ↔ Trimmed (TextBlank u) s t := by
  rw [trimmed_iff _ u.isSpace (textBlank_iff u)]
  exact eq_comm

section
variable {digit : Char → Option Nat} {base : Nat} (loop : Bool → Nat → Str → Option Nat)

/-- What both loops over digits satisfy. -/
structure DigitLoop : Prop where
  nil : ∀ prev acc, loop prev acc [] = if prev then some acc else none
  cons : ∀ prev acc c r, loop prev acc (c :: r) =
    if c = '_' then if prev then loop false acc r else none
    else match digit c with
      | some d => loop true (base * acc + d) r
      | none => none

variable {loop}

theorem loop_snoc (h : DigitLoop (digit := digit) (base := base) loop) (hu : digit '_' = none) (c : Char) (d : Nat) (hc : digit c = some d) :
    ∀ (s : Str) (prev : Bool) (acc n : Nat), loop prev acc s = some n →
      loop prev acc (s ++ [c]) = some (base * n + d) ∧ loop prev acc (s ++ ['_', c]) = some (base * n + d) := by
  have hne : c ≠ '_' := by intro e; rw [e, hu] at hc; cases hc
  intro s
  induction s with
  | nil =>
    intro prev acc n hn
    rw [h.nil] at hn
    cases prev with
    | false => cases hn
    | true =>
      injection hn with hn
      subst hn
      simp [h.cons, h.nil, hne, hc]
  | cons x s ih =>
    intro prev acc n hn
    rw [h.cons] at hn
    simp only [List.cons_append, h.cons]
    by_cases hx : x = '_'
    · simp only [hx, if_true] at hn ⊢
      cases prev with
      | false => cases hn
      | true => exact ih _ _ _ hn
    · simp only [hx, if_false] at hn ⊢
      cases hd : digit x with
      | none => rw [hd] at hn; cases hn
      | some e => rw [hd] at hn; exact ih _ _ _ hn

theorem loop_of_digits (h : DigitLoop (digit := digit) (base := base) loop) (hu : digit '_' = none) (s : Str) (n : Nat)
    (hd : Digits digit base s n) : loop false 0 s = some n := by
  induction hd with
  | @one c d hc =>
    have hne : c ≠ '_' := by intro e; rw [e, hu] at hc; cases hc
    simp [h.cons, h.nil, hne, hc]
  | @more s n c d _ hc ih => exact (loop_snoc h hu c d hc s false 0 n ih).1
  | @under s n c d _ hc ih => exact (loop_snoc h hu c d hc s false 0 n ih).2

theorem digits_of_loop (h : DigitLoop (digit := digit) (base := base) loop) :
    ∀ (s : Str) (acc n : Nat),
      (∀ p, Digits digit base p acc → loop true acc s = some n → Digits digit base (p ++ s) n) ∧
      (∀ p, Digits digit base p acc → loop false acc s = some n → Digits digit base (p ++ '_' :: s) n) ∧
      (acc = 0 → loop false acc s = some n → Digits digit base s n) := by
  intro s
  induction s with
  | nil =>
    intro acc n
    simp only [h.nil]
    refine ⟨fun p hp hn => ?_, fun p _ hn => (by simp at hn), fun _ hn => (by simp at hn)⟩
    injection hn with hn
    subst hn
    simpa using hp
  | cons x s ih =>
    intro acc n
    simp only [h.cons]
    by_cases hx : x = '_'
    · simp only [hx, if_true]
      refine ⟨fun p hp hn => (ih acc n).2.1 p hp hn, fun p _ hn => (by simp at hn), fun _ hn => (by simp at hn)⟩
    · simp only [hx, if_false]
      cases hd : digit x with
      | none => refine ⟨fun p _ hn => (by simp at hn), fun p _ hn => (by simp at hn), fun _ hn => (by simp at hn)⟩
      | some d =>
        refine ⟨fun p hp hn => ?_, fun p hp hn => ?_, fun h0 hn => ?_⟩
        · have := (ih _ n).1 _ (.more hp hd) hn
          simpa using this
        · have := (ih _ n).1 _ (.under hp hd) hn
          simpa using this
        · subst h0
          simp only [Nat.mul_zero, Nat.zero_add] at hn
          have := (ih d n).1 _ (.one hd) hn
          simpa using this

theorem loop_iff (h : DigitLoop (digit := digit) (base := base) loop) (hu : digit '_' = none) (s : Str) (n : Nat) :
    loop false 0 s = some n ↔ Digits digit base s n :=
  ⟨fun hl => (digits_of_loop h s 0 n).2.2 rfl hl, loop_of_digits h hu s n⟩

end

theorem decimal_ascii_none (u : UniTable) (c : Char) (h : c.toNat < 128) (h' : ¬ (48 ≤ c.toNat ∧ c.toNat ≤ 57)) :
    u.decimal c = none := by
  rw [u.ascii_decimal c h, if_neg h']

theorem decimal_loop (u : UniTable) : DigitLoop (digit := u.decimal) (base := 10) u.digits :=
  ⟨fun prev acc => by rw [UniTable.digits], fun prev acc c r => by rw [UniTable.digits]; cases u.decimal c <;> rfl⟩

theorem hexValue_eq (u : UniTable) (c : Char) : u.hexDigitOf c = hexValue u c := by
  unfold UniTable.hexDigitOf hexValue
  cases u.decimal c with
  | some d => rfl
  | none =>
    simp only
    by_cases h : c.toNat < 128
    · have key : ∀ n : Fin 128, let c := Char.ofNat n.val
          (if 97 ≤ c.toNat ∧ c.toNat ≤ 102 then some (c.toNat - 87)
            else if 65 ≤ c.toNat ∧ c.toNat ≤ 70 then some (c.toNat - 55) else none) =
          hexLetter c := by decide +kernel
      have := key ⟨c.toNat, h⟩
      simp only [Char.ofNat_toNat] at this
      exact this
    · have h1 : ¬ (97 ≤ c.toNat ∧ c.toNat ≤ 102) := by omega
      have h2 : ¬ (65 ≤ c.toNat ∧ c.toNat ≤ 70) := by omega
      have no : ∀ l : Str, (∀ x ∈ l, x.toNat < 128) → l.idxOf? c = none := by
        intro l hl
        rw [List.idxOf?_eq_none_iff]
        intro hc
        exact h (hl c hc)
      rw [if_neg h1, if_neg h2]
      unfold hexLetter
      rw [no _ (by decide), no _ (by decide)]
      rfl

theorem hex_loop (u : UniTable) : DigitLoop (digit := hexValue u) (base := 16) u.hexDigits :=
  ⟨fun prev acc => by rw [UniTable.hexDigits], fun prev acc c r => by rw [UniTable.hexDigits, hexValue_eq]; cases hexValue u c <;> rfl⟩

theorem hexValue_under (u : UniTable) : hexValue u '_' = none := by
  rw [← hexValue_eq]
  unfold UniTable.hexDigitOf
  rw [decimal_ascii_none u '_' (by decide) (by decide)]
  rfl

theorem hexValue_x (u : UniTable) {x : Char} (h : x ∈ ['x', 'X']) : hexValue u x = none := by
  rw [← hexValue_eq]
  unfold UniTable.hexDigitOf
  simp only [List.mem_cons, List.not_mem_nil, or_false] at h
  rcases h with rfl | rfl
  · rw [decimal_ascii_none u _ (by decide) (by decide)]; rfl
  · rw [decimal_ascii_none u _ (by decide) (by decide)]; rfl

theorem hexLoop_x (u : UniTable) (z x : Char) (r : Str) (h : x ∈ ['x', 'X']) :
    u.hexDigits false 0 (z :: x :: r) = none := by
  have hx : x ≠ '_' := by
    simp only [List.mem_cons, List.not_mem_nil, or_false] at h
    rcases h with rfl | rfl <;> decide
  have hl := hex_loop u
  rw [hl.cons]
  by_cases hz : z = '_'
  · simp [hz]
  · rw [if_neg hz]
    cases hexValue u z with
    | none => rfl
    | some d => simp only [hl.cons, hx, if_false, hexValue_x u h]

theorem hexLoop_under (u : UniTable) (r : Str) : u.hexDigits false 0 ('_' :: r) = none := by
  rw [(hex_loop u).cons]; simp

theorem hexBody_iff (u : UniTable) (s : Str) (n : Nat) : u.hexBody s = some n ↔ HexBody u s n := by
  have li := loop_iff (hex_loop u) (hexValue_under u)
  have hxx : ∀ x : Char, (x = 'x' ∨ x = 'X') ↔ x ∈ ['x', 'X'] := by simp
  unfold HexBody
  simp only [← li]
  unfold UniTable.hexBody
  split
  · rename_i z x r
    by_cases hp : u.decimal z = some 0 ∧ (x = 'x' ∨ x = 'X')
    · rw [if_pos hp]
      constructor
      · intro h
        exact .inr ⟨z, x, r, hp.1, (hxx x).1 hp.2, .inr rfl, h⟩
      · rintro (h | ⟨z', x', r', h1, h2, h3, h4⟩)
        · rw [hexLoop_x u z x _ ((hxx x).1 hp.2)] at h; cases h
        · rcases h3 with h3 | h3
          · injection h3 with e1 h3
            injection h3 with e2 h3
            subst h3
            rw [hexLoop_under] at h4; cases h4
          · injection h3 with e1 h3
            injection h3 with e2 h3
            injection h3 with e3 h3
            subst h3
            exact h4
    · rw [if_neg hp]
      constructor
      · exact .inl
      · rintro (h | ⟨z', x', r', h1, h2, h3, h4⟩)
        · exact h
        · exfalso
          apply hp
          rcases h3 with h3 | h3
          · injection h3 with e1 h3
            injection h3 with e2 h3
            subst e1 e2
            exact ⟨h1, (hxx _).2 h2⟩
          · injection h3 with e1 h3
            injection h3 with e2 h3
            subst e1 e2
            exact ⟨h1, (hxx _).2 h2⟩
  · rename_i z x r hr
    by_cases hp : u.decimal z = some 0 ∧ (x = 'x' ∨ x = 'X')
    · rw [if_pos hp]
      constructor
      · intro h
        exact .inr ⟨z, x, r, hp.1, (hxx x).1 hp.2, .inl rfl, h⟩
      · rintro (h | ⟨z', x', r', h1, h2, h3, h4⟩)
        · rw [hexLoop_x u z x _ ((hxx x).1 hp.2)] at h; cases h
        · rcases h3 with h3 | h3
          · injection h3 with e1 h3
            injection h3 with e2 h3
            subst h3
            exact h4
          · injection h3 with e1 h3
            injection h3 with e2 h3
            exact absurd h3 (hr r')
    · rw [if_neg hp]
      constructor
      · exact .inl
      · rintro (h | ⟨z', x', r', h1, h2, h3, h4⟩)
        · exact h
        · exfalso
          apply hp
          rcases h3 with h3 | h3
          · injection h3 with e1 h3
            injection h3 with e2 h3
            subst e1 e2
            exact ⟨h1, (hxx _).2 h2⟩
          · injection h3 with e1 h3
            injection h3 with e2 h3
            subst e1 e2
            exact ⟨h1, (hxx _).2 h2⟩
  · rename_i s' h1 h2
    constructor
    · exact .inl
    · rintro (h | ⟨z', x', r', k1, k2, k3, k4⟩)
      · exact h
      · exfalso
        rcases k3 with k3 | k3
        · exact h2 _ _ _ k3
        · exact h1 _ _ _ k3

theorem signed_iff (body : Str → Option Nat) (spec : Str → Nat → Prop) (hb : ∀ s n, body s = some n ↔ spec s n)
    (h0 : body [] = none) (hs : ∀ c r, c = '+' ∨ c = '-' → body (c :: r) = none) (f : Str → Option Int)
    (f0 : f [] = none) (f1 : ∀ c t, f (c :: t) =
      if c = '-' then (body t).map fun n : Nat => -Int.ofNat n
      else if c = '+' then (body t).map Int.ofNat
      else (body (c :: t)).map Int.ofNat) (s : Str) (i : Int) : f s = some i ↔ Signed spec s i := by
  constructor
  · intro h
    cases s with
    | nil => rw [f0] at h; cases h
    | cons c t =>
      rw [f1] at h
      split at h
      · rename_i hc
        subst hc
        obtain ⟨n, hn, rfl⟩ := Option.map_eq_some_iff.1 h
        exact .minus ((hb _ _).1 hn)
      · split at h
        · rename_i hc
          subst hc
          obtain ⟨n, hn, rfl⟩ := Option.map_eq_some_iff.1 h
          exact .plus ((hb _ _).1 hn)
        · obtain ⟨n, hn, rfl⟩ := Option.map_eq_some_iff.1 h
          exact .plain ((hb _ _).1 hn)
  · intro h
    cases h with
    | @plain s n h =>
      have h := (hb _ _).2 h
      cases s with
      | nil => rw [h0] at h; cases h
      | cons c t =>
        have hm : c ≠ '-' := by rintro rfl; rw [hs _ _ (.inr rfl)] at h; cases h
        have hp : c ≠ '+' := by rintro rfl; rw [hs _ _ (.inl rfl)] at h; cases h
        rw [f1, if_neg hm, if_neg hp, h]; rfl
    | @plus t n h => rw [f1, if_neg (by decide), if_pos rfl, (hb _ _).2 h]; rfl
    | @minus t n h => rw [f1, if_pos rfl, (hb _ _).2 h]; rfl

theorem hexSign (u : UniTable) (c : Char) (r : Str) (h : c = '+' ∨ c = '-') : u.hexBody (c :: r) = none := by
  have hd : hexValue u c = none := by
    rw [← hexValue_eq]; unfold UniTable.hexDigitOf
    rcases h with rfl | rfl <;> rw [decimal_ascii_none u _ (by decide) (by decide)] <;> rfl
  have hz : u.decimal c ≠ some 0 := by
    rcases h with rfl | rfl <;> rw [decimal_ascii_none u _ (by decide) (by decide)] <;> simp
  have hu : c ≠ '_' := by rcases h with rfl | rfl <;> decide
  cases hb : u.hexBody (c :: r) with
  | none => rfl
  | some n =>
    rcases (hexBody_iff u _ _).1 hb with h' | ⟨z, x, r', h1, -, h3, -⟩
    · rw [← loop_iff (hex_loop u) (hexValue_under u), (hex_loop u).cons, if_neg hu, hd] at h'
      cases h'
    · rcases h3 with h3 | h3 <;> injection h3 with h3 <;> subst h3 <;> exact absurd h1 hz

/-- C96: a decimal number is accepted iff it is one according to the reference manual,
with its value, and everything else raises `ValueError`. -/
theorem C96_decimal (u : UniTable) (s : Str) :
    (∀ i, u.intOf s = .ok i ↔ DecimalText u s i) ∧
    ((∀ i, ¬ DecimalText u s i) → u.intOf s = .error .valueError) := by
  have key : ∀ i, u.signed ((s.dropWhile u.intSpace).reverse.dropWhile u.intSpace).reverse = some i ↔
      DecimalText u s i := by
    intro i
    have := signed_iff (fun s => u.digits false 0 s) (Digits u.decimal 10)
      (loop_iff (decimal_loop u) (decimal_ascii_none u '_' (by decide) (by decide)))
      (by simp only [(decimal_loop u).nil]; rfl)
      (by
        intro c r h
        have hd : u.decimal c = none := by
          rcases h with rfl | rfl <;> exact decimal_ascii_none u _ (by decide) (by decide)
        have hu : c ≠ '_' := by rcases h with rfl | rfl <;> decide
        simp only [(decimal_loop u).cons, if_neg hu, hd])
      u.signed (by rw [UniTable.signed]) (fun c t => by rw [UniTable.signed])
    rw [this]
    unfold DecimalText
    constructor
    · intro h; exact ⟨_, (trimmed_iff _ u.intSpace (numberBlank_iff u) _ _).2 rfl, h⟩
    · rintro ⟨t, h1, h2⟩
      rw [← (trimmed_iff _ u.intSpace (numberBlank_iff u) _ _).1 h1]
      exact h2
  constructor
  · intro i
    rw [← key]
    unfold UniTable.intOf
    split <;> rename_i h <;> simp [h]
  · intro h
    unfold UniTable.intOf
    split
    · rename_i i hi; exact absurd ((key i).1 hi) (h i)
    · rfl

/-- C96: the same for hexadecimal numbers, which may have a prefix. -/
theorem C96_hexadecimal (u : UniTable) (s : Str) :
    (∀ i, u.int16 s = .ok i ↔ HexText u s i) ∧
    ((∀ i, ¬ HexText u s i) → u.int16 s = .error .valueError) := by
  have key : ∀ i, u.hexSigned ((s.dropWhile u.intSpace).reverse.dropWhile u.intSpace).reverse = some i ↔
      HexText u s i := by
    intro i
    have := signed_iff u.hexBody (HexBody u) (hexBody_iff u)
      (by unfold UniTable.hexBody; simp only [(hex_loop u).nil]; rfl) (hexSign u)
      u.hexSigned (by rw [UniTable.hexSigned]) (fun c t => by rw [UniTable.hexSigned])
    rw [this]
    unfold HexText
    constructor
    · intro h; exact ⟨_, (trimmed_iff _ u.intSpace (numberBlank_iff u) _ _).2 rfl, h⟩
    · rintro ⟨t, h1, h2⟩
      rw [← (trimmed_iff _ u.intSpace (numberBlank_iff u) _ _).1 h1]
      exact h2
  constructor
  · intro i
    rw [← key]
    unfold UniTable.int16
    split <;> rename_i h <;> simp [h]
  · intro h
    unfold UniTable.int16
    split
    · rename_i i hi; exact absurd ((key i).1 hi) (h i)
    · rfl

/-- Spaces, a sign, a leading zero and an underscore are all fine; two underscores, a
space inside and a separator in front are not. -/
example : UniTable.ascii.intOf " -0_17\n".toList = .ok (-17) ∧
    UniTable.ascii.intOf "1__7".toList = .error .valueError ∧
    UniTable.ascii.intOf "1 7".toList = .error .valueError ∧
    UniTable.ascii.intOf [Char.ofNat 28, '7'] = .error .valueError ∧
    UniTable.ascii.strip [Char.ofNat 28, '7', '\t'] = ['7'] ∧
    UniTable.ascii.int16 "0x_fF".toList = .ok 255 ∧ UniTable.ascii.int16 "_ff".toList = .error .valueError ∧
    UniTable.ascii.int16 "0x".toList = .error .valueError := by decide +kernel

theorem natStr_digits (u : UniTable) (n : Nat) : Digits u.decimal 10 (natStr n) n := by
  induction n using Nat.strongRecOn with
  | _ n ih =>
    rw [natStr_step]
    split
    · rename_i h
      exact .one (u.decimal_digit n h)
    · rename_i h
      have := Digits.more (ih (n / 10) (by omega)) (u.decimal_digit (n % 10) (by omega))
      rwa [show 10 * (n / 10) + n % 10 = n by omega] at this

theorem zero_digits (u : UniTable) {s : Str} {n : Nat} (h : Digits u.decimal 10 s n) : Digits u.decimal 10 ('0' :: s) n := by
  have h0 : u.decimal '0' = some 0 := u.decimal_digit 0 (by decide)
  induction h with
  | one hc =>
    have := Digits.more (base := 10) (.one h0) hc
    simpa using this
  | more _ hc ih => exact .more ih hc
  | under _ hc ih => exact .under ih hc

theorem zeros_digits (u : UniTable) {s : Str} {n : Nat} (h : Digits u.decimal 10 s n) :
    ∀ k, Digits u.decimal 10 (List.replicate k '0' ++ s) n
  | 0 => h
  | k + 1 => zero_digits u (zeros_digits u h k)

/-- C96: `str(i)` and `f'{i:03d}'` are texts of ASCII digits with which the number is
written, the second with zeros as far as three characters. -/
theorem C96_written (u : UniTable) (i : Int) :
    DecimalText u (intStr i) i ∧ DecimalText u (pad3 i) i ∧
    (∀ c ∈ intStr i, c = '-' ∨ 48 ≤ c.toNat ∧ c.toNat ≤ 57) ∧
    (∀ c ∈ pad3 i, c = '-' ∨ 48 ≤ c.toNat ∧ c.toNat ≤ 57) ∧
    (pad3 i).length = max 3 (intStr i).length := by
  have blank : ∀ c : Char, (c = '-' ∨ 48 ≤ c.toNat ∧ c.toNat ≤ 57) → ¬ NumberBlank u c := by
    rintro c (rfl | h) (hb | ⟨hb, -⟩)
    · revert hb; decide
    · revert hb; decide
    · simp only [List.mem_cons, List.not_mem_nil, or_false] at hb
      omega
    · omega
  have trim : ∀ (s : Str), (∀ c ∈ s, c = '-' ∨ 48 ≤ c.toNat ∧ c.toNat ≤ 57) → Signed (Digits u.decimal 10) s i →
      DecimalText u s i := fun s h hs =>
    ⟨s, ⟨[], [], by simp, by simp, by simp, fun c hc => blank c (h c (List.mem_of_head? hc)),
      fun c hc => blank c (h c (List.mem_of_getLast? hc))⟩, hs⟩
  have c1 : ∀ c ∈ intStr i, c = '-' ∨ 48 ≤ c.toNat ∧ c.toNat ≤ 57 := fun c hc => (intStr_char i c hc).symm
  have c2 : ∀ c ∈ pad3 i, c = '-' ∨ 48 ≤ c.toNat ∧ c.toNat ≤ 57 := by
    intro c hc
    have zero : ∀ k, c ∈ List.replicate k '0' → c = '-' ∨ 48 ≤ c.toNat ∧ c.toNat ≤ 57 := by
      intro k h
      rw [List.eq_of_mem_replicate h]
      exact .inr (by decide)
    unfold pad3 at hc
    split at hc
    · simp only [List.cons_append, List.mem_cons, List.mem_append] at hc
      rcases hc with h | h | h
      · exact .inl h
      · exact zero _ h
      · exact .inr (natStr_digit _ c h)
    · rcases List.mem_append.1 hc with h | h
      · exact zero _ h
      · exact .inr (natStr_digit _ c h)
  have s1 : Signed (Digits u.decimal 10) (intStr i) i := by
    have := natStr_digits u i.natAbs
    unfold intStr
    split
    · have h := Signed.minus this
      rwa [show -((i.natAbs : Nat) : Int) = i by omega] at h
    · have h := Signed.plain this
      rwa [show ((i.natAbs : Nat) : Int) = i by omega] at h
  have s2 : Signed (Digits u.decimal 10) (pad3 i) i := by
    have := zeros_digits u (natStr_digits u i.natAbs)
    unfold pad3
    split
    · have h := Signed.minus (this (2 - (natStr i.natAbs).length))
      rwa [show -((i.natAbs : Nat) : Int) = i by omega] at h
    · have h := Signed.plain (this (3 - (natStr i.natAbs).length))
      rwa [show ((i.natAbs : Nat) : Int) = i by omega] at h
  refine ⟨trim _ c1 s1, trim _ c2 s2, c1, c2, ?_⟩
  unfold pad3 intStr
  split <;> simp <;> omega

example : pad3 (-5) = "-05".toList ∧ pad3 7 = "007".toList ∧ pad3 1234 = "1234".toList := by decide +kernel

end CBus.Props
