import Verif.Lemmas.ArgParse

/-! # Command lines that are read and how they are written -/

namespace CBus.Props
open CBus CBus.Cbz CBus.ArgParse

variable {δ : Type} {T : List (Str × δ)} {isFlag : δ → Bool}

theorem strip_newline (s e : Str) (h : '\n' ∉ s) (he : e = [] ∨ e = ['\n']) :
    (if (s ++ e).getLast? = some '\n' then (s ++ e).dropLast else s ++ e) = s := by
  rcases he with rfl | rfl
  · rw [List.append_nil, if_neg]
    exact fun hl => h (List.mem_of_getLast? hl)
  · simp

/-- Negative numbers. -/
theorem negative_iff (u : UniTable) (w : Str) : negativeNumber u w = true ↔ Negative u w := by
  have np : u.decimal '.' = none := by rw [u.ascii_decimal '.' (by decide)]; rfl
  have nn : u.decimal '\n' = none := by rw [u.ascii_decimal '\n' (by decide)]; rfl
  constructor
  · intro h
    unfold negativeNumber at h
    split at h
    · rename_i s
      dsimp only at h
      obtain ⟨t, e, he, hs, ht⟩ : ∃ t e : Str, (e = [] ∨ e = ['\n']) ∧ s = t ++ e ∧
          (if s.getLast? = some '\n' then s.dropLast else s) = t := by
        by_cases hl : s.getLast? = some '\n'
        · rw [if_pos hl]
          refine ⟨_, ['\n'], .inr rfl, ?_, rfl⟩
          obtain ⟨r, hr⟩ := List.getLast?_eq_some_iff.1 hl
          rw [hr]
          simp
        · rw [if_neg hl]
          exact ⟨s, [], .inl rfl, by simp, rfl⟩
      rw [ht] at h
      have hsplit := List.takeWhile_append_dropWhile (p := fun c => (u.decimal c).isSome) (l := t)
      have hdig : ∀ c ∈ t.takeWhile (fun c => (u.decimal c).isSome), (u.decimal c).isSome = true :=
        fun c hc => List.all_eq_true.1 List.all_takeWhile c hc
      split at h
      · rename_i hd
        rw [hd, List.append_nil] at hsplit
        rw [hsplit] at hdig
        exact ⟨t, [], e, by simpa using hdig, he, .inl ⟨by rw [hs], by simpa using h⟩⟩
      · rename_i r hd
        rw [hd] at hsplit
        simp only [ne_eq, Bool.and_eq_true, decide_eq_true_eq, List.all_eq_true] at h
        refine ⟨t.takeWhile (fun c => (u.decimal c).isSome), r, e, ?_, he, .inr ⟨?_, h.1⟩⟩
        · intro c hc
          rcases List.mem_append.1 hc with hc | hc
          · exact hdig c hc
          · exact h.2 c hc
        · rw [hs]
          conv => lhs; rw [← hsplit]
          simp
      · cases h
    · cases h
  · rintro ⟨a, b, e, hd, he, ⟨rfl, hn⟩ | ⟨rfl, hn⟩⟩
    · have ha : '\n' ∉ a := fun hm => by have := hd '\n' (by simp [hm]); rw [nn] at this; cases this
      unfold negativeNumber
      simp only [strip_newline a e ha he]
      have : a.dropWhile (fun c => (u.decimal c).isSome) = [] := by
        have := List.dropWhile_append_of_pos (p := fun c => (u.decimal c).isSome) (l₁ := a) (l₂ := []) fun c hc => hd c (by simp [hc] : c ∈ a ++ b)
        simpa using this
      rw [this]
      simpa using hn
    · have ha : '\n' ∉ a ++ '.' :: b := fun hm => by
        simp only [List.mem_append, List.mem_cons] at hm
        rcases hm with hm | hm | hm
        · have := hd '\n' (by simp [hm]); rw [nn] at this; cases this
        · exact absurd hm (by decide)
        · have := hd '\n' (by simp [hm]); rw [nn] at this; cases this
      unfold negativeNumber
      have h1 := strip_newline (a ++ '.' :: b) e ha he
      rw [show (a ++ '.' :: b) ++ e = a ++ '.' :: (b ++ e) by simp] at h1
      simp only [h1]
      have : (a ++ '.' :: b).dropWhile (fun c => (u.decimal c).isSome) = '.' :: b := by
        rw [List.dropWhile_append_of_pos fun c hc => hd c (by simp [hc])]
        simp [np]
      rw [this]
      simp only [ne_eq, Bool.and_eq_true, decide_eq_true_eq, List.all_eq_true]
      exact ⟨hn, fun c hc => hd c (by simp [hc])⟩

theorem Table.shortName (hT : Table T) (c : Char) (d : δ) (h : (['-', c], d) ∈ T) : c ≠ '-' := by
  rintro rfl
  exact hT.notDashes _ d h rfl

/-- A word that is read as a short option. -/
theorem classify_short (hT : Table T) (u : UniTable) (w : Str) (d : δ) (e : Option Str) :
    classify T u w = some (.opt d true e) ↔ ∃ c, (['-', c], d) ∈ T ∧ ((e = none ∧ w = ['-', c]) ∨
      ∃ v, e = some v ∧ (w = '-' :: c :: '=' :: v ∨ w = '-' :: c :: v ∧ v ≠ [] ∧ v.head? ≠ some '=')) := by
  have hs : ∀ c d, (['-', c], d) ∈ T → isShort ['-', c] = true := fun c d h => by
    simpa [isShort] using hT.shortName c d h
  constructor
  · intro h
    rcases classify_inv hT u w d true e h with ⟨h1, -⟩ | ⟨-, c, hc, ⟨v, rfl⟩, -⟩
    · cases h1
    · refine ⟨c, hc, ?_⟩
      rcases v with _ | ⟨x, v⟩
      · rw [List.append_nil, classify_name hT u _ d (.inl hc)] at h
        injection h with h
        injection h with _ _ h
        exact .inl ⟨h.symm, rfl⟩
      · by_cases hx : x = '='
        · subst hx
          rw [classify_equals hT u _ d v (.inl hc)] at h
          injection h with h
          injection h with _ _ h
          exact .inr ⟨v, h.symm, .inl rfl⟩
        · have := classify_joined hT u c d (x :: v) hc (by simp) (by simpa using hx)
          rw [show ['-', c] ++ x :: v = '-' :: c :: x :: v from rfl, this] at h
          injection h with h
          injection h with _ _ h
          exact .inr ⟨x :: v, h.symm, .inr ⟨rfl, by simp, by simpa using hx⟩⟩
  · rintro ⟨c, hc, ⟨rfl, rfl⟩ | ⟨v, rfl, rfl | ⟨rfl, h1, h2⟩⟩⟩
    · rw [classify_name hT u _ d (.inl hc), hs c d hc]
    · have := classify_equals hT u _ d v (.inl hc)
      rw [hs c d hc] at this
      exact this
    · exact classify_joined hT u c d v hc h1 h2

theorem names_dash (hT : Table T) (p : Str) (d : δ) (h : Names T p d) : isShort p = false ↔ "--".toList <+: p := by
  constructor
  · intro hs
    rcases h with h | ⟨h, -⟩
    · exact (hT.long _ h hs).1
    · exact h
  · rintro ⟨t, rfl⟩
    rfl

/-- A word that is read as a long option. -/
theorem classify_longName (hT : Table T) (u : UniTable) (w : Str) (d : δ) (e : Option Str) :
    classify T u w = some (.opt d false e) ↔ ∃ p, Names T p d ∧ "--".toList <+: p ∧
      ((e = none ∧ w = p) ∨ ∃ v, e = some v ∧ w = p ++ '=' :: v) := by
  constructor
  · intro h
    rcases classify_inv hT u w d false e h with ⟨-, p, hp, h1, h2⟩ | ⟨h1, -⟩
    · exact ⟨p, hp, (names_dash hT p d hp).1 h1, h2⟩
    · cases h1
  · rintro ⟨p, hp, hd, ⟨rfl, rfl⟩ | ⟨v, rfl, rfl⟩⟩
    · rw [classify_name hT u _ d hp, (names_dash hT _ d hp).2 hd]
    · rw [classify_equals hT u _ d v hp, (names_dash hT _ d hp).2 hd]

theorem takeWhile_prefix' (w : Str) : w.takeWhile (· ≠ '=') <+: w := List.takeWhile_prefix _

/-- A word that stands for no option. -/
theorem noOption_lookup (hT : Table T) (w o : Str) (h : NoOption T w) (ho : o <+: w) (hp : w.takeWhile (· ≠ '=') <+: o) :
    T.lookup o = none := by
  refine lookup_none _ fun d hd => ?_
  cases hs : isShort o with
  | true =>
    have hl := hT.letter _ hd hs
    simp only at hl
    rw [hl] at hd ho
    exact h.1 _ d (hT.shortName _ d hd) ho hd
  | false => exact h.2 ((hT.long _ hd hs).1.trans ho) o d hd hp

theorem noOption_candidates (hT : Table T) (r : Str) (hr : r ≠ []) (h : NoOption T ('-' :: r)) :
    candidates T ('-' :: r) = [] := by
  obtain ⟨c, r, rfl⟩ := List.exists_cons_of_ne_nil hr
  cases hs : isShort ('-' :: c :: r) with
  | true =>
    have hc : c ≠ '-' := by simpa [isShort] using hs
    unfold candidates
    rw [hs, if_pos rfl, List.filterMap_eq_nil_iff]
    rintro ⟨o, d⟩ ho
    have hno : o ≠ ['-', c] := by
      rintro rfl
      exact h.1 c d hc ⟨r, rfl⟩ ho
    simp only
    rw [if_neg (show ¬ o = ('-' :: c :: r).take 2 from hno), if_neg]
    intro hp
    obtain ⟨t, ht⟩ := List.isPrefixOf_iff_prefix.1 hp
    have hso : isShort o = true := by rw [← ht]; simpa [isShort] using hc
    have hl := hT.letter _ ho hso
    simp only at hl
    rw [← ht] at hl
    have hlen := congrArg List.length hl
    simp only [List.cons_append, List.length_cons, List.length_append, List.length_nil] at hlen
    have h1 : r = [] := List.length_eq_zero_iff.1 (by omega)
    have h2 : t = [] := List.length_eq_zero_iff.1 (by omega)
    exact hno (by rw [← ht, h1, h2]; rfl)
  | false =>
    have hc : c = '-' := by simpa [isShort] using hs
    subst hc
    rw [candidates_long _ hs, List.map_eq_nil_iff, List.filter_eq_nil_iff]
    rintro ⟨o, d⟩ ho hp
    exact h.2 ⟨r, rfl⟩ o d ho (List.isPrefixOf_iff_prefix.1 hp)

/-- A word that is read as an argument. -/
theorem isArg_iff (hT : Table T) (u : UniTable) (w : Str) :
    IsArg T u w ↔ w ≠ "--".toList ∧ classify T u w = some .arg := by
  have dash : classify T u ['-'] = some .arg := by
    have : T.lookup ['-'] = none := lookup_none _ fun d hd => by
      have := (hT.dash _ hd).2
      simp at this
    simp [classify, this]
  constructor
  · rintro ⟨h1, h | rfl | ⟨h, hn⟩⟩
    · exact ⟨h1, classify_arg u w h⟩
    · exact ⟨h1, dash⟩
    · refine ⟨h1, ?_⟩
      by_cases hd : w.head? = some '-'
      · obtain ⟨r, rfl⟩ : ∃ r, w = '-' :: r := by
          cases w with
          | nil => cases hd
          | cons x r => simp only [List.head?_cons, Option.some.injEq] at hd; exact ⟨r, by rw [hd]⟩
        by_cases hr : r = []
        · subst hr; exact dash
        · have l1 := noOption_lookup hT _ _ h (List.prefix_refl _) (takeWhile_prefix' _)
          have l2 := noOption_lookup hT _ _ h (takeWhile_prefix' _) (List.prefix_refl _)
          have l3 := noOption_candidates hT r hr h
          unfold classify
          simp only [l1, l2, l3, hr, ne_eq, not_true_eq_false, if_false]
          split
          · cases ‹none = some _›
          · by_cases hneg : negativeNumber u ('-' :: r) = true
            · rw [if_pos hneg]
            · rw [if_neg hneg, if_pos]
              exact hn.resolve_left fun hn => hneg ((negative_iff u _).2 hn)
      · exact classify_arg u w hd
  · rintro ⟨h1, h⟩
    refine ⟨h1, ?_⟩
    by_cases hd : w.head? = some '-'
    · obtain ⟨r, rfl⟩ : ∃ r, w = '-' :: r := by
        cases w with
        | nil => cases hd
        | cons x r => simp only [List.head?_cons, Option.some.injEq] at hd; exact ⟨r, by rw [hd]⟩
      by_cases hr : r = []
      · subst hr; exact .inr (.inl rfl)
      · refine .inr (.inr ?_)
        have hno1 : ∀ c d, c ≠ '-' → ['-', c] <+: '-' :: r → (['-', c], d) ∉ T := by
          rintro c d - ⟨v, hv⟩ hm
          have : ∃ e, classify T u ('-' :: r) = some (.opt d true e) := by
            rw [← hv]
            rcases v with _ | ⟨x, v⟩
            · exact ⟨none, (classify_short hT u _ d _).2 ⟨c, hm, .inl ⟨rfl, rfl⟩⟩⟩
            · by_cases hx : x = '='
              · subst hx
                exact ⟨some v, (classify_short hT u _ d _).2 ⟨c, hm, .inr ⟨v, rfl, .inl rfl⟩⟩⟩
              · exact ⟨some (x :: v), (classify_short hT u _ d _).2
                  ⟨c, hm, .inr ⟨x :: v, rfl, .inr ⟨rfl, by simp, by simpa using hx⟩⟩⟩⟩
          obtain ⟨e, he⟩ := this
          rw [he] at h
          cases h
        unfold classify at h
        simp only [hr, ne_eq, not_true_eq_false, if_false] at h
        split at h
        · cases h
        · split at h
          · cases h
          · split at h
            · cases h
            · rename_i k hk
              injection h with h
              subst h
              exfalso
              have hm : Word.arg ∈ candidates T ('-' :: r) := by rw [hk]; simp
              unfold candidates at hm
              split at hm
              · rw [List.mem_filterMap] at hm
                obtain ⟨⟨o, d⟩, -, hx⟩ := hm
                simp only at hx
                split at hx
                · cases hx
                · split at hx <;> cases hx
              · rw [List.mem_filterMap] at hm
                obtain ⟨⟨o, d⟩, -, hx⟩ := hm
                simp only at hx
                split at hx <;> cases hx
            · rename_i hk
              refine ⟨⟨hno1, ?_⟩, ?_⟩
              · rintro ⟨t, ht⟩ o d ho hp
                have hs : isShort ('-' :: r) = false := by rw [← ht]; rfl
                rw [candidates_long _ hs, List.map_eq_nil_iff, List.filter_eq_nil_iff] at hk
                exact hk (o, d) ho (List.isPrefixOf_iff_prefix.2 hp)
              · split at h
                · rename_i hneg
                  exact .inl ((negative_iff u _).1 hneg)
                · split at h
                  · exact .inr ‹_›
                  · cases h
    · exact .inl hd

/-! ## Letters behind a dash -/

theorem run_nonempty (s : Str) (is : List (δ × Str)) (p : Option δ) (h : Run T isFlag s is p) : s ≠ [] := by
  cases h <;> simp

/-- What the letters behind a short option without an argument mean. -/
theorem chain_run : ∀ (e : Str) (d : δ) (fs : List δ) (l : δ) (x : Option Str),
    unchain.chain T isFlag d e = some (fs, l, x) → ∃ fs', fs = d :: fs' ∧
      ((∃ v, x = some v ∧ (v = "--".toList ∨ Run T isFlag e (fs'.map (·, []) ++ [(l, v)]) none)) ∨
       x = none ∧ isFlag l = true ∧ Run T isFlag e (fs'.map (·, []) ++ [(l, [])]) none ∨
       x = none ∧ isFlag l = false ∧ Run T isFlag e (fs'.map (·, [])) (some l))
  | [], d, fs, l, x, h => by simp [unchain.chain] at h
  | c :: e, d, fs, l, x, h => by
    unfold unchain.chain at h
    split at h
    · cases h
    · rename_i d' hl
      have hm := lookup_mem _ _ hl
      split at h
      · rename_i he
        subst he
        simp only [Option.some.injEq, Prod.mk.injEq] at h
        obtain ⟨rfl, rfl, rfl⟩ := h
        refine ⟨[], rfl, .inr ?_⟩
        cases hf : isFlag d' with
        | true => exact .inl ⟨rfl, rfl, .flag c d' hm hf⟩
        | false => exact .inr ⟨rfl, rfl, .opens c d' hm hf⟩
      · rename_i he
        split at h
        · rename_i hf
          rw [Option.map_eq_some_iff] at h
          obtain ⟨⟨fs1, l1, x1⟩, h1, h2⟩ := h
          simp only [Prod.mk.injEq] at h2
          obtain ⟨rfl, rfl, rfl⟩ := h2
          obtain ⟨fs', rfl, i⟩ := chain_run e d' fs1 l1 x1 h1
          refine ⟨d' :: fs', rfl, ?_⟩
          rcases i with ⟨v, rfl, rfl | i⟩ | ⟨rfl, i1, i2⟩ | ⟨rfl, i1, i2⟩
          · exact .inl ⟨_, rfl, .inl rfl⟩
          · exact .inl ⟨v, rfl, .inr (.more c d' e _ _ hm hf i)⟩
          · exact .inr (.inl ⟨rfl, i1, .more c d' e _ _ hm hf i2⟩)
          · exact .inr (.inr ⟨rfl, i1, .more c d' e _ _ hm hf i2⟩)
        · rename_i hf
          simp only [Option.some.injEq, Prod.mk.injEq] at h
          obtain ⟨rfl, rfl, rfl⟩ := h
          refine ⟨[], rfl, .inl ⟨e, rfl, ?_⟩⟩
          by_cases hd : e = "--".toList
          · exact .inl hd
          · exact .inr (.joined c d' e hm (by simpa using hf) he hd)

/-- And the other way round. -/
theorem run_chain (hT : Table T) (s : Str) (is : List (δ × Str)) (p : Option δ) (h : Run T isFlag s is p) (d : δ) :
    ∃ fs l x, unchain.chain T isFlag d s = some (d :: fs, l, x) ∧
      ((∃ v, p = none ∧ x = some v ∧ v ≠ "--".toList ∧ is = fs.map (·, []) ++ [(l, v)]) ∨
       (p = none ∧ x = none ∧ isFlag l = true ∧ is = fs.map (·, []) ++ [(l, [])]) ∨
       (p = some l ∧ x = none ∧ isFlag l = false ∧ is = fs.map (·, []))) := by
  induction h generalizing d with
  | flag c d' h hf =>
    exact ⟨[], d', none, by simp [unchain.chain, hT.lookup _ h], .inr (.inl ⟨rfl, rfl, hf, rfl⟩)⟩
  | opens c d' h hf =>
    exact ⟨[], d', none, by simp [unchain.chain, hT.lookup _ h], .inr (.inr ⟨rfl, rfl, hf, rfl⟩)⟩
  | joined c d' v h hf hv hd =>
    exact ⟨[], d', some v, by simp [unchain.chain, hT.lookup _ h, hv, hf], .inl ⟨v, rfl, rfl, hd, rfl⟩⟩
  | more c d' s is p h hf hs ih =>
    obtain ⟨fs, l, x, h1, h2⟩ := ih d'
    refine ⟨d' :: fs, l, x, by simp [unchain.chain, hT.lookup _ h, run_nonempty _ _ _ hs, hf, h1], ?_⟩
    rcases h2 with ⟨v, rfl, rfl, h3, rfl⟩ | ⟨rfl, rfl, h3, rfl⟩ | ⟨rfl, rfl, h3, rfl⟩
    · exact .inl ⟨v, rfl, rfl, h3, rfl⟩
    · exact .inr (.inl ⟨rfl, rfl, h3, rfl⟩)
    · exact .inr (.inr ⟨rfl, rfl, h3, rfl⟩)

theorem second (c : Char) (v : Str) (h : v.head? ≠ some '=') : (c :: v)[1]? ≠ some '=' := by
  cases v <;> simpa using h

/-- A word that is read as short options. -/
theorem shorts_read (hT : Table T) (u : UniTable) (w : Str) (d : δ) (e : Option Str) (fs : List δ) (l : δ) (x : Option Str)
    (hc : classify T u w = some (.opt d true e)) (hu : unchain T isFlag d true e = some (fs, l, x)) :
    ∃ s, w = '-' :: s ∧
      ((∃ v, x = some v ∧ (v = "--".toList ∨ Shorts T isFlag s (fs.map (·, []) ++ [(l, v)]) none)) ∨
       x = none ∧ isFlag l = true ∧ Shorts T isFlag s (fs.map (·, []) ++ [(l, [])]) none ∨
       x = none ∧ isFlag l = false ∧ Shorts T isFlag s (fs.map (·, [])) (some l)) := by
  obtain ⟨c, hm, ⟨rfl, rfl⟩ | ⟨v, rfl, hw⟩⟩ := (classify_short hT u w d e).1 hc
  · simp only [unchain, Option.some.injEq, Prod.mk.injEq] at hu
    obtain ⟨rfl, rfl, rfl⟩ := hu
    refine ⟨[c], rfl, .inr ?_⟩
    cases hf : isFlag d with
    | true => exact .inl ⟨rfl, rfl, .plain _ _ _ (.flag c d hm hf) (by simp)⟩
    | false => exact .inr ⟨rfl, rfl, .plain _ _ _ (.opens c d hm hf) (by simp)⟩
  · have hex : ∃ s, w = '-' :: s := by
      rcases hw with rfl | ⟨rfl, -⟩
      · exact ⟨_, rfl⟩
      · exact ⟨_, rfl⟩
    obtain ⟨s, rfl⟩ := hex
    refine ⟨s, rfl, ?_⟩
    unfold unchain at hu
    cases hf : isFlag d with
    | true =>
      simp only [hf, if_true] at hu
      obtain ⟨fs', rfl, h⟩ := chain_run v d fs l x hu
      have up : ∀ is p, Run T isFlag v is p → Shorts T isFlag s ((d, []) :: is) p := by
        intro is p hr
        rcases hw with hw | ⟨hw, -, h2⟩
        · injection hw with _ hw
          subst hw
          exact .flag c d v is p hm hf hr
        · injection hw with _ hw
          subst hw
          exact .plain _ _ _ (.more c d v is p hm hf hr) (second c v h2)
      rcases h with ⟨v', rfl, rfl | h⟩ | ⟨rfl, h1, h2⟩ | ⟨rfl, h1, h2⟩
      · exact .inl ⟨_, rfl, .inl rfl⟩
      · exact .inl ⟨v', rfl, .inr (up _ _ h)⟩
      · exact .inr (.inl ⟨rfl, h1, up _ _ h2⟩)
      · exact .inr (.inr ⟨rfl, h1, up _ _ h2⟩)
    | false =>
      simp only [hf, Bool.false_eq_true, if_false, Option.some.injEq, Prod.mk.injEq] at hu
      obtain ⟨rfl, rfl, rfl⟩ := hu
      refine .inl ⟨v, rfl, ?_⟩
      by_cases hd : v = "--".toList
      · exact .inl hd
      · refine .inr ?_
        rcases hw with hw | ⟨hw, h1, h2⟩
        · injection hw with _ hw
          subst hw
          exact .equals c d v hm hf hd
        · injection hw with _ hw
          subst hw
          exact .plain _ _ _ (.joined c d v hm hf h1 hd) (second c v h2)

/-- And the other way round. -/
theorem shorts_words (hT : Table T) (u : UniTable) (s : Str) (is : List (δ × Str)) (p : Option δ) (h : Shorts T isFlag s is p) :
    '-' :: s ≠ "--".toList ∧
    ∃ d e fs l x, classify T u ('-' :: s) = some (.opt d true e) ∧ unchain T isFlag d true e = some (fs, l, x) ∧
      ((∃ v, p = none ∧ x = some v ∧ v ≠ "--".toList ∧ is = fs.map (·, []) ++ [(l, v)]) ∨
       (p = none ∧ x = none ∧ isFlag l = true ∧ is = fs.map (·, []) ++ [(l, [])]) ∨
       (p = some l ∧ x = none ∧ isFlag l = false ∧ is = fs.map (·, []))) := by
  have nd : ∀ c d v, (['-', c], d) ∈ T → '-' :: c :: v ≠ "--".toList := by
    intro c d v hm e
    have := hT.shortName c d hm
    simp at e
    exact this e.1
  have up : ∀ (c : Char) (d : δ) (e : Str) (is : List (δ × Str)) (p : Option δ), isFlag d = true → Run T isFlag e is p →
      ∃ fs l x, unchain T isFlag d true (some e) = some (fs, l, x) ∧
      ((∃ v, p = none ∧ x = some v ∧ v ≠ "--".toList ∧ (d, []) :: is = fs.map (·, []) ++ [(l, v)]) ∨
       (p = none ∧ x = none ∧ isFlag l = true ∧ (d, []) :: is = fs.map (·, []) ++ [(l, [])]) ∨
       (p = some l ∧ x = none ∧ isFlag l = false ∧ (d, []) :: is = fs.map (·, []))) := by
    intro c d e is p hf hr
    obtain ⟨fs, l, x, h1, h2⟩ := run_chain hT e is p hr d
    refine ⟨d :: fs, l, x, by simp [unchain, hf, h1], ?_⟩
    rcases h2 with ⟨v, rfl, rfl, h3, rfl⟩ | ⟨rfl, rfl, h3, rfl⟩ | ⟨rfl, rfl, h3, rfl⟩
    · exact .inl ⟨v, rfl, rfl, h3, rfl⟩
    · exact .inr (.inl ⟨rfl, rfl, h3, rfl⟩)
    · exact .inr (.inr ⟨rfl, rfl, h3, rfl⟩)
  cases h with
  | plain s is p h he =>
    cases h with
    | flag c d h hf =>
      exact ⟨nd c d [] h, d, none, [], d, none, (classify_short hT u _ d _).2 ⟨c, h, .inl ⟨rfl, rfl⟩⟩, rfl,
        .inr (.inl ⟨rfl, rfl, hf, rfl⟩)⟩
    | opens c d h hf =>
      exact ⟨nd c d [] h, d, none, [], d, none, (classify_short hT u _ d _).2 ⟨c, h, .inl ⟨rfl, rfl⟩⟩, rfl,
        .inr (.inr ⟨rfl, rfl, hf, rfl⟩)⟩
    | joined c d v h hf hv hd =>
      exact ⟨nd c d v h, d, some v, [], d, some v,
        (classify_short hT u _ d _).2 ⟨c, h, .inr ⟨v, rfl, .inr ⟨rfl, hv, by cases v <;> simpa using he⟩⟩⟩,
        by simp [unchain, hf], .inl ⟨v, rfl, rfl, hd, rfl⟩⟩
    | more c d s is p h hf hs =>
      obtain ⟨fs, l, x, h1, h2⟩ := up c d s is p hf hs
      exact ⟨nd c d s h, d, some s, fs, l, x,
        (classify_short hT u _ d _).2 ⟨c, h, .inr ⟨s, rfl, .inr ⟨rfl, run_nonempty _ _ _ hs, by cases s <;> simpa using he⟩⟩⟩, h1, h2⟩
  | equals c d v h hf hd =>
    exact ⟨nd c d _ h, d, some v, [], d, some v,
        (classify_short hT u _ d _).2 ⟨c, h, .inr ⟨v, rfl, .inl rfl⟩⟩, by simp [unchain, hf], .inl ⟨v, rfl, rfl, hd, rfl⟩⟩
  | flag c d s is p h hf hs =>
    obtain ⟨fs, l, x, h1, h2⟩ := up c d s is p hf hs
    exact ⟨nd c d _ h, d, some s, fs, l, x,
        (classify_short hT u _ d _).2 ⟨c, h, .inr ⟨s, rfl, .inl rfl⟩⟩, h1, h2⟩

/-! ## Options with their arguments -/

/-- A word that is read as options. -/
theorem group_read (hT : Table T) (u : UniTable) (w : Str) (d : δ) (s : Bool) (e : Option Str) (fs : List δ) (l : δ)
    (x : Option Str) (hw : w ≠ "--".toList)
    (hc : classify T u w = some (.opt d s e)) (hu : unchain T isFlag d s e = some (fs, l, x)) :
    (∀ v, x = some v → v ≠ "--".toList → Group T isFlag u [w] (fs.map (·, []) ++ [(l, v)])) ∧
    (x = none → isFlag l = true → Group T isFlag u [w] (fs.map (·, []) ++ [(l, [])])) ∧
    (x = none → isFlag l = false → ∀ v, IsArg T u v → Group T isFlag u [w, v] (fs.map (·, []) ++ [(l, v)])) := by
  cases s with
  | true =>
    obtain ⟨s, rfl, ⟨v, rfl, hv⟩ | ⟨rfl, h1, h2⟩ | ⟨rfl, h1, h2⟩⟩ := shorts_read hT u w d e fs l x hc hu
    · refine ⟨?_, (nomatch ·), (nomatch ·)⟩
      intro v' e hd
      injection e with e
      subst e
      exact .short _ _ (hv.resolve_left hd)
    · exact ⟨fun v e => (nomatch e), fun _ _ => .short _ _ h2, fun _ h => by rw [h1] at h; cases h⟩
    · exact ⟨fun v e => (nomatch e), fun _ h => (by rw [h1] at h; cases h), fun _ _ v hv => .shortValue _ _ _ _ h2 hv⟩
  | false =>
    obtain ⟨p, hp, hd, ⟨rfl, rfl⟩ | ⟨v, rfl, rfl⟩⟩ := (classify_longName hT u w d e).1 hc
    · simp only [unchain, Option.some.injEq, Prod.mk.injEq] at hu
      obtain ⟨rfl, rfl, rfl⟩ := hu
      exact ⟨fun v e => (nomatch e), fun _ h => .longFlag _ _ hp hd hw h, fun _ h v hv => .longValue _ _ _ hp hd hw h hv⟩
    · unfold unchain at hu
      cases hf : isFlag d with
      | true => simp [hf] at hu
      | false =>
        simp only [hf, Bool.false_eq_true, if_false, Option.some.injEq, Prod.mk.injEq] at hu
        obtain ⟨rfl, rfl, rfl⟩ := hu
        refine ⟨?_, (nomatch ·), (nomatch ·)⟩
        intro v' e hv
        injection e with e
        subst e
        exact .longEquals _ _ _ hp hd hf hv

/-- One option, written in one of the usual ways. -/
theorem spells_group (hT : Table T) (u : UniTable) (ws : List Str) (i : δ × Str) (h : Spells T isFlag ws i) :
    Group T isFlag u ws [i] := by
  have nm : ∀ p d, Names T p d → "--".toList <+: p ∨ ∃ c, p = ['-', c] ∧ (['-', c], d) ∈ T := by
    intro p d h
    cases hs : isShort p with
    | false => exact .inl ((names_dash hT p d h).1 hs)
    | true =>
      rcases h with h | ⟨h, -⟩
      · have hl := hT.letter _ h hs
        simp only at hl
        exact .inr ⟨_, hl, by rw [← hl]; exact h⟩
      · exact .inl h
  have arg : ∀ v : Str, v.head? ≠ some '-' → IsArg T u v := fun v hv => ⟨by rintro rfl; exact hv rfl, .inl hv⟩
  cases h with
  | flag p d h hp hf =>
    rcases nm p d h with hl | ⟨c, rfl, hm⟩
    · exact .longFlag p d h hl hp hf
    · exact .short [c] _ (.plain _ _ _ (.flag c d hm hf) (by simp))
  | separate p d v h hp hf hv =>
    rcases nm p d h with hl | ⟨c, rfl, hm⟩
    · exact .longValue p d v h hl hp hf (arg v hv)
    · exact .shortValue [c] [] d v (.plain _ _ _ (.opens c d hm hf) (by simp)) (arg v hv)
  | equals p d v h hf hv =>
    rcases nm p d h with hl | ⟨c, rfl, hm⟩
    · exact .longEquals p d v h hl hf hv
    · exact .short _ _ (.equals c d v hm hf hv)
  | joined c d v h hf hv he hd =>
    exact .short _ _ (.plain _ _ _ (.joined c d v h hf hv hd) (second c v he))

/-- How such words are read. -/
theorem group_words (hT : Table T) (u : UniTable) (ws : List Str) (is : List (δ × Str)) (h : Group T isFlag u ws is) :
    ∃ kws : List (Str × Word δ), (∀ more r, classifyAll T u more = some r → classifyAll T u (ws ++ more) = some (kws ++ r)) ∧
      ∀ r pos, readWords T isFlag (kws ++ r) pos = (readWords T isFlag r pos).map fun y => (is ++ y.1, y.2) := by
  have one : ∀ w d s e fs l x (v : Str) , w ≠ "--".toList → classify T u w = some (.opt d s e) →
      unchain T isFlag d s e = some (fs, l, x) → (x = some v ∧ v ≠ "--".toList ∨ x = none ∧ isFlag l = true ∧ v = []) →
      ∃ kws : List (Str × Word δ), (∀ more r, classifyAll T u more = some r → classifyAll T u ([w] ++ more) = some (kws ++ r)) ∧
      ∀ r pos, readWords T isFlag (kws ++ r) pos = (readWords T isFlag r pos).map fun y => ((fs.map (·, []) ++ [(l, v)]) ++ y.1, y.2) := by
    intro w d s e fs l x v hw hc hu hx
    refine ⟨[(w, .opt d s e)], fun more r h => classifyAll_cons u w more _ r hw hc h, fun r pos => ?_⟩
    rw [List.cons_append, List.nil_append, readWords]
    rcases hx with ⟨rfl, hx⟩ | ⟨rfl, hx, rfl⟩
    · simp only [hu, if_neg hx, List.append_assoc, List.cons_append, List.nil_append]
    · simp only [hu, hx, if_true, List.append_assoc, List.cons_append, List.nil_append]
  have two : ∀ w d s e fs l (v : Str), w ≠ "--".toList → classify T u w = some (.opt d s e) →
      unchain T isFlag d s e = some (fs, l, none) → isFlag l = false → IsArg T u v →
      ∃ kws : List (Str × Word δ), (∀ more r, classifyAll T u more = some r → classifyAll T u ([w, v] ++ more) = some (kws ++ r)) ∧
      ∀ r pos, readWords T isFlag (kws ++ r) pos = (readWords T isFlag r pos).map fun y => ((fs.map (·, []) ++ [(l, v)]) ++ y.1, y.2) := by
    intro w d s e fs l v hw hc hu hl hv
    obtain ⟨v1, v2⟩ := (isArg_iff hT u v).1 hv
    refine ⟨[(w, .opt d s e), (v, .arg)], fun more r h => classifyAll_cons u w _ _ _ hw hc (classifyAll_cons u v more _ r v1 v2 h),
      fun r pos => ?_⟩
    rw [List.cons_append, List.cons_append, List.nil_append, readWords]
    simp only [hu, hl, Bool.false_eq_true, if_false, List.append_assoc, List.cons_append, List.nil_append]
  cases h with
  | longFlag p d h hl hp hf =>
    exact one p d false none [] d none [] hp ((classify_longName hT u _ _ _).2 ⟨p, h, hl, .inl ⟨rfl, rfl⟩⟩) rfl (.inr ⟨rfl, hf, rfl⟩)
  | longValue p d v h hl hp hf hv =>
    exact two p d false none [] d v hp ((classify_longName hT u _ _ _).2 ⟨p, h, hl, .inl ⟨rfl, rfl⟩⟩) rfl hf hv
  | longEquals p d v h hl hf hd =>
    refine one _ d false (some v) [] d (some v) v ?_ ((classify_longName hT u _ _ _).2 ⟨p, h, hl, .inr ⟨v, rfl, rfl⟩⟩)
      (by simp [unchain, hf]) (.inl ⟨rfl, hd⟩)
    intro e
    have : '=' ∈ "--".toList := by rw [← e]; simp
    exact absurd this (by decide)
  | short s is h =>
    obtain ⟨hn, d, e, fs, l, x, h1, h2, h3⟩ := shorts_words hT u s is none h
    rcases h3 with ⟨v, -, rfl, h3, rfl⟩ | ⟨-, rfl, h3, rfl⟩ | ⟨h3, -⟩
    · exact one _ d true e fs l _ v hn h1 h2 (.inl ⟨rfl, h3⟩)
    · exact one _ d true e fs l _ [] hn h1 h2 (.inr ⟨rfl, h3, rfl⟩)
    · cases h3
  | shortValue s is d v h hv =>
    obtain ⟨hn, d', e, fs, l, x, h1, h2, h3⟩ := shorts_words hT u s is (some d) h
    rcases h3 with ⟨v, h3, -⟩ | ⟨h3, -⟩ | ⟨h3, rfl, h4, rfl⟩
    · cases h3
    · cases h3
    · injection h3 with h3
      subst h3
      exact two _ d' true e fs d v hn h1 h2 h4 hv

/-! ## Whole lines -/

theorem readWords_none (w : Str) (k : Word δ) (r : List (Str × Word δ)) (hk : k = .arg ∨ k = .dashes) :
    readWords T isFlag ((w, k) :: r) [] = none := by
  rcases hk with rfl | rfl <;> simp [readWords, takeAll]

theorem readWords_args (xs : List Str) (y : List (δ × Str) × List (List Str))
    (h : readWords T isFlag (xs.map fun w => (w, .arg)) [] = some y) : xs = [] ∧ y = ([], []) := by
  cases xs with
  | nil => simpa [readWords, takeAll, eq_comm] using h
  | cons x xs => rw [List.map_cons, readWords_none x _ _ (.inl rfl)] at h; cases h

/-- An argument that must be given takes a word, and `--` on either side of it. -/
theorem readWords_take (w : Str) (k : Word δ) (r : List (Str × Word δ)) (hk : k = .arg ∨ k = .dashes) :
    readWords T isFlag ((w, k) :: r) [true] =
      match takeOne true ((w, k) :: r) with
      | none => none
      | some (v, r') => if r'.length < r.length + 1 then (readWords T isFlag r' []).map fun y => (y.1, v :: y.2) else none := by
  have : readWords T isFlag ((w, k) :: r) [true] =
      if (takeAll [true] ((w, k) :: r)).2.2.length < r.length + 1 then
        (readWords T isFlag (takeAll [true] ((w, k) :: r)).2.2 (takeAll [true] ((w, k) :: r)).2.1).map fun y =>
          (y.1, (takeAll [true] ((w, k) :: r)).1 ++ y.2)
      else none := by
    rcases hk with rfl | rfl <;> rw [readWords] <;> intros <;> contradiction
  rw [this]
  rcases e : takeOne true ((w, k) :: r) with _ | y
  · have : takeAll [true] ((w, k) :: r) = ([], [true], (w, k) :: r) := by simp [takeAll, e]
    simp [this]
  · have : takeAll [true] ((w, k) :: r) = ([y.1], [], y.2) := by simp [takeAll, e]
    simp [this]

theorem takeOne_arg (w : Str) (r : List (Str × Word δ)) : takeOne true ((w, .arg) :: r) =
    some (w :: (r.takeWhile isDashes).map (·.1), r.dropWhile isDashes) := by
  simp [takeOne, isDashes]

theorem takeOne_dashes (w : Str) (xs : List Str) : takeOne (δ := δ) true ((w, .dashes) :: xs.map fun w => (w, .arg)) =
    match xs with
    | [] => none
    | x :: xs => some ([w, x], xs.map fun w => (w, .arg)) := by
  cases xs with
  | nil => simp [takeOne, isDashes, List.dropWhile_cons]
  | cons x xs =>
    have h1 : (xs.map fun w => (w, Word.arg (δ := δ))).takeWhile isDashes = [] := by
      cases xs <;> simp [isDashes]
    have h2 : (xs.map fun w => (w, Word.arg (δ := δ))).dropWhile isDashes = xs.map fun w => (w, .arg) := by
      cases xs <;> simp [isDashes]
    simp [takeOne, isDashes, List.takeWhile_cons, List.dropWhile_cons, h1, h2]

/-- A command line is read as it is written. -/
theorem line_words (hT : Table T) (u : UniTable) (argv : List Str) (is : List (δ × Str)) (p : Option Str)
    (h : Line T isFlag u argv is p) : ∃ ws, classifyAll T u argv = some ws ∧
      match p with
      | none => readWords T isFlag ws [] = some (is, [])
      | some w => ∃ v, readWords T isFlag ws [true] = some (is, [v]) ∧ (v.erase "--".toList).head? = some w := by
  induction h with
  | nil => exact ⟨[], rfl, by simp [readWords, takeAll]⟩
  | group ws more is is' p h hm ih =>
    obtain ⟨r, h1, h2⟩ := ih
    obtain ⟨kws, g1, g2⟩ := group_words hT u ws is h
    refine ⟨kws ++ r, g1 more r h1, ?_⟩
    cases p with
    | none => simp only at h2 ⊢; rw [g2, h2]; rfl
    | some w =>
      obtain ⟨v, h2, h3⟩ := h2
      exact ⟨v, by rw [g2, h2]; rfl, h3⟩
  | word w more is h hm ih =>
    obtain ⟨r, h1, h2⟩ := ih
    obtain ⟨v1, v2⟩ := (isArg_iff hT u w).1 h
    refine ⟨(w, .arg) :: r, classifyAll_cons u w more _ r v1 v2 h1, [w], ?_, ?_⟩
    · have hr : r.takeWhile isDashes = [] ∧ r.dropWhile isDashes = r := by
        rcases r with _ | ⟨⟨x, k⟩, r⟩
        · exact ⟨rfl, rfl⟩
        · cases k with
          | dashes => simp only at h2; rw [readWords_none x _ r (.inr rfl)] at h2; cases h2
          | _ => simp [isDashes]
      simp only at h2
      rw [readWords_take w _ r (.inl rfl), takeOne_arg, hr.1, hr.2]
      simp [h2]
    · rw [List.erase_cons, if_neg (by simpa using v1)]
      rfl
  | before w =>
    refine ⟨[("--".toList, .dashes), (w, .arg)], by simp [classifyAll], ["--".toList, w], ?_, by simp⟩
    have := takeOne_dashes (δ := δ) "--".toList [w]
    simp only [List.map_cons, List.map_nil] at this
    rw [readWords_take _ _ _ (.inr rfl), this]
    simp [readWords, takeAll]
  | after w h =>
    obtain ⟨v1, v2⟩ := (isArg_iff hT u w).1 h
    refine ⟨[(w, .arg), ("--".toList, .dashes)], classifyAll_cons u w _ _ _ v1 v2 (by simp [classifyAll]), [w, "--".toList], ?_, ?_⟩
    · rw [readWords_take w _ _ (.inl rfl), takeOne_arg]
      simp [isDashes, List.takeWhile_cons, List.dropWhile_cons, readWords, takeAll]
    · rw [List.erase_cons, if_neg (by simpa using v1)]
      rfl

theorem classify_dashes (u : UniTable) (w : Str) : classify T u w ≠ some .dashes := by
  intro h
  unfold classify at h
  split at h
  · cases h
  · split at h
    · cases h
    · split at h
      · cases h
      · split at h
        · cases h
        · dsimp only at h
          split at h
          · cases h
          · split at h
            · cases h
            · rename_i k hk
              injection h with h
              subst h
              have hm := List.mem_singleton_self (Word.dashes (δ := δ))
              rw [← hk] at hm
              unfold candidates at hm
              split at hm
              · rw [List.mem_filterMap] at hm
                obtain ⟨⟨o, d⟩, -, hx⟩ := hm
                simp only at hx
                split at hx
                · cases hx
                · split at hx <;> cases hx
              · rw [List.mem_filterMap] at hm
                obtain ⟨⟨o, d⟩, -, hx⟩ := hm
                simp only at hx
                split at hx <;> cases hx
            · split at h
              · cases h
              · split at h <;> cases h

theorem classifyAll_inv (u : UniTable) (argv : List Str) (v : Str) (k : Word δ) (r : List (Str × Word δ))
    (h : classifyAll T u argv = some ((v, k) :: r)) : ∃ rest, argv = v :: rest ∧
      ((v = "--".toList ∧ k = .dashes ∧ r = rest.map fun w => (w, .arg)) ∨
       (v ≠ "--".toList ∧ k ≠ .dashes ∧ classify T u v = some k ∧ classifyAll T u rest = some r)) := by
  cases argv with
  | nil => simp [classifyAll] at h
  | cons w ws =>
    unfold classifyAll at h
    split at h
    · rename_i hw
      simp only [Option.some.injEq, List.cons.injEq, Prod.mk.injEq] at h
      obtain ⟨⟨rfl, rfl⟩, rfl⟩ := h
      exact ⟨ws, rfl, .inl ⟨hw, rfl, rfl⟩⟩
    · rename_i hw
      split at h
      · rename_i k' r' h1 h2
        simp only [Option.some.injEq, List.cons.injEq, Prod.mk.injEq] at h
        obtain ⟨⟨rfl, rfl⟩, rfl⟩ := h
        exact ⟨ws, rfl, .inr ⟨hw, fun e => classify_dashes u w (e ▸ h1), h1, h2⟩⟩
      · cases h

/-- And what is read is written like that. -/
theorem words_line (hT : Table T) (u : UniTable) : ∀ (n : Nat) (argv : List Str) (ws : List (Str × Word δ)), ws.length ≤ n →
    classifyAll T u argv = some ws → ∀ is vs,
      (readWords T isFlag ws [] = some (is, vs) → vs = [] ∧ Line T isFlag u argv is none) ∧
      (readWords T isFlag ws [true] = some (is, vs) →
        ∃ w v, vs = [v] ∧ (v.erase "--".toList).head? = some w ∧ Line T isFlag u argv is (some w))
  | n, argv, [], _, hc, is, vs => by
    have : argv = [] := by
      cases argv with
      | nil => rfl
      | cons w ws => have := (classifyAll_words u _ _ hc).1; simp at this
    subst this
    constructor
    · intro h
      simp only [readWords, takeAll, if_true, Option.some.injEq, Prod.mk.injEq] at h
      obtain ⟨rfl, rfl⟩ := h
      exact ⟨rfl, .nil⟩
    · intro h
      simp [readWords, takeAll, takeOne] at h
  | 0, _, _ :: _, hn, _, _, _ => by simp at hn
  | n + 1, argv, (w, k) :: r, hn, hc, is, vs => by
    simp only [List.length_cons, Nat.add_le_add_iff_right] at hn
    obtain ⟨rest, rfl, ⟨rfl, rfl, rfl⟩ | ⟨hw, hk, h1, h2⟩⟩ := classifyAll_inv u argv w k r hc
    · refine ⟨fun h => (by rw [readWords_none _ _ _ (.inr rfl)] at h; cases h), fun h => ?_⟩
      rw [readWords_take _ _ _ (.inr rfl), takeOne_dashes] at h
      rcases rest with _ | ⟨x, rest⟩
      · cases h
      · simp only at h
        split at h
        · rw [Option.map_eq_some_iff] at h
          obtain ⟨y, h3, h4⟩ := h
          obtain ⟨rfl, rfl⟩ := readWords_args rest y h3
          simp only [Prod.mk.injEq] at h4
          obtain ⟨rfl, rfl⟩ := h4
          exact ⟨x, _, rfl, by simp, .before x⟩
        · cases h
    · cases k with
      | dashes => exact absurd rfl hk
      | unknown => exact ⟨fun h => by simp [readWords] at h, fun h => by simp [readWords] at h⟩
      | arg =>
        have hw' : IsArg T u w := (isArg_iff hT u w).2 ⟨hw, h1⟩
        refine ⟨fun h => (by rw [readWords_none _ _ _ (.inl rfl)] at h; cases h), fun h => ?_⟩
        rw [readWords_take _ _ _ (.inl rfl), takeOne_arg] at h
        simp only at h
        split at h
        · rw [Option.map_eq_some_iff] at h
          obtain ⟨⟨is', vs'⟩, h3, h4⟩ := h
          simp only [Prod.mk.injEq] at h4
          obtain ⟨rfl, rfl⟩ := h4
          have er : ∀ t : List Str, ((w :: t).erase "--".toList).head? = some w := fun t => by
            rw [List.erase_cons, if_neg (by simpa using hw)]
            rfl
          have plain : r.takeWhile isDashes = [] → r.dropWhile isDashes = r → ∃ x v,
              (w :: (r.takeWhile isDashes).map (·.1)) :: vs' = [v] ∧ (v.erase "--".toList).head? = some x ∧
              Line T isFlag u (w :: rest) is' (some x) := by
            intro e1 e2
            rw [e2] at h3
            obtain ⟨rfl, hi⟩ := (words_line hT u n rest r hn h2 is' vs').1 h3
            exact ⟨w, _, rfl, er _, .word w rest is' hw' hi⟩
          rcases r with _ | ⟨⟨x, k⟩, r⟩
          · exact plain rfl rfl
          · by_cases hd : k = .dashes
            · subst hd
              obtain ⟨rest', rfl, ⟨rfl, -, rfl⟩ | ⟨-, h5, -⟩⟩ := classifyAll_inv u rest x _ r h2
              · have e1 : (rest'.map fun w => (w, Word.arg (δ := δ))).takeWhile isDashes = [] := by
                  cases rest' <;> simp [isDashes, List.takeWhile_cons]
                have e2 : (rest'.map fun w => (w, Word.arg (δ := δ))).dropWhile isDashes = rest'.map fun w => (w, .arg) := by
                  cases rest' <;> simp [isDashes, List.dropWhile_cons]
                rw [List.dropWhile_cons, if_pos (by rfl), e2] at h3
                obtain ⟨rfl, h6⟩ := readWords_args rest' _ h3
                simp only [Prod.mk.injEq] at h6
                obtain ⟨rfl, rfl⟩ := h6
                exact ⟨w, _, rfl, er _, .after w hw'⟩
              · exact absurd rfl h5
            · have hb : isDashes (x, k) = false := by cases k <;> first | rfl | exact absurd rfl hd
              exact plain (by rw [List.takeWhile_cons, hb]; rfl) (by rw [List.dropWhile_cons, hb]; rfl)
        · cases h
      | opt d s e =>
        have key : ∀ pos, readWords T isFlag ((w, .opt d s e) :: r) pos = some (is, vs) →
            ∃ ws' more is1 is2 r', rest = ws' ++ more ∧ Group T isFlag u (w :: ws') is1 ∧ is = is1 ++ is2 ∧ r'.length ≤ n ∧
              classifyAll T u more = some r' ∧ readWords T isFlag r' pos = some (is2, vs) := by
          intro pos h
          rw [readWords] at h
          cases hu : unchain T isFlag d s e with
          | none => rw [hu] at h; cases h
          | some t =>
            obtain ⟨fs, l, x⟩ := t
            obtain ⟨g1, g2, g3⟩ := group_read hT u w d s e fs l x hw h1 hu
            rw [hu] at h
            cases x with
            | some v =>
              simp only at h
              split at h
              · cases h
              · rename_i hv
                rw [Option.map_eq_some_iff] at h
                obtain ⟨y, h3, h4⟩ := h
                simp only [Prod.mk.injEq] at h4
                obtain ⟨rfl, rfl⟩ := h4
                exact ⟨[], rest, _, y.1, r, rfl, g1 v rfl hv, by simp, hn, h2, h3⟩
            | none =>
              simp only at h
              split at h
              · rename_i hf
                rw [Option.map_eq_some_iff] at h
                obtain ⟨y, h3, h4⟩ := h
                simp only [Prod.mk.injEq] at h4
                obtain ⟨rfl, rfl⟩ := h4
                exact ⟨[], rest, _, y.1, r, rfl, g2 rfl hf, by simp, hn, h2, h3⟩
              · rename_i hf
                split at h
                · rename_i v r'
                  obtain ⟨rest', rfl, ⟨-, h5, -⟩ | ⟨h5, -, h6, h7⟩⟩ := classifyAll_inv u rest v _ r' h2
                  · cases h5
                  · rw [Option.map_eq_some_iff] at h
                    obtain ⟨y, h3, h4⟩ := h
                    simp only [Prod.mk.injEq] at h4
                    obtain ⟨rfl, rfl⟩ := h4
                    exact ⟨[v], rest', _, y.1, r', rfl, g3 rfl (by simpa using hf) v ((isArg_iff hT u v).2 ⟨h5, h6⟩), by simp,
                      by simp at hn; omega, h7, h3⟩
                · cases h
        constructor
        · intro h
          obtain ⟨ws', more, is1, is2, r', rfl, g, rfl, hl, hc', hr⟩ := key _ h
          obtain ⟨rfl, hi⟩ := (words_line hT u n more r' hl hc' is2 vs).1 hr
          exact ⟨rfl, .group (w :: ws') more is1 is2 none g hi⟩
        · intro h
          obtain ⟨ws', more, is1, is2, r', rfl, g, rfl, hl, hc', hr⟩ := key _ h
          obtain ⟨x, v, rfl, h3, hi⟩ := (words_line hT u n more r' hl hc' is2 vs).2 hr
          exact ⟨x, v, rfl, h3, .group (w :: ws') more is1 is2 _ g hi⟩

/-- A command line that takes no argument without an option. -/
theorem readArgs_none (hT : Table T) (u : UniTable) (argv : List Str) (is : List (δ × Str)) (vs : List (Option Str)) :
    readArgs T isFlag [] u argv = some (is, vs) ↔ vs = [] ∧ Line T isFlag u argv is none := by
  unfold readArgs
  constructor
  · intro h
    split at h
    · cases h
    · rename_i ws hc
      rw [Option.map_eq_some_iff] at h
      obtain ⟨⟨is', vs'⟩, h1, h2⟩ := h
      simp only [Prod.mk.injEq] at h2
      obtain ⟨rfl, rfl⟩ := h2
      obtain ⟨rfl, hl⟩ := (words_line hT u _ argv ws (Nat.le_refl _) hc is' vs').1 h1
      exact ⟨rfl, hl⟩
  · rintro ⟨rfl, h⟩
    obtain ⟨ws, h1, h2⟩ := line_words hT u argv is none h
    simp only at h2
    simp only [h1, h2]
    rfl

/-- A command line that takes one. -/
theorem readArgs_one (hT : Table T) (u : UniTable) (argv : List Str) (is : List (δ × Str)) (vs : List (Option Str)) :
    readArgs T isFlag [true] u argv = some (is, vs) ↔ ∃ w, vs = [some w] ∧ Line T isFlag u argv is (some w) := by
  unfold readArgs
  constructor
  · intro h
    split at h
    · cases h
    · rename_i ws hc
      rw [Option.map_eq_some_iff] at h
      obtain ⟨⟨is', vs'⟩, h1, h2⟩ := h
      simp only [Prod.mk.injEq] at h2
      obtain ⟨rfl, rfl⟩ := h2
      obtain ⟨w, v, rfl, h3, hl⟩ := (words_line hT u _ argv ws (Nat.le_refl _) hc is' vs').2 h1
      exact ⟨w, by simp only [List.map_cons, List.map_nil, h3], hl⟩
  · rintro ⟨w, rfl, h⟩
    obtain ⟨ws, h1, v, h2, h3⟩ := line_words hT u argv is (some w) h
    simp only [h1, h2, Option.map_some, List.map_cons, List.map_nil, h3]

end CBus.Props
