import Verif.Lemmas.JsonText
import Verif.Lemmas.Dict

/-! # The JSON scanner follows the grammar -/

namespace CBus.Json
open CBus Spec.Json

theorem scanConstant_sound {s : Str} {v : JVal} {r : Str} (env : JEnv) (h : scanConstant s constants = some (v, r)) :
    ∃ t, s = t ++ r ∧ Part env t (.value v) := by
  have key : ∀ l : List (Str × JVal), (∀ p ∈ l, Part env p.1 (.value p.2)) → scanConstant s l = some (v, r) →
      ∃ t, s = t ++ r ∧ Part env t (.value v) := by
    intro l
    induction l with
    | nil => intro _ h; cases h
    | cons p l ih =>
      intro hl h
      obtain ⟨p, w⟩ := p
      unfold scanConstant at h
      split at h
      · rename_i hp
        simp only [Option.some.injEq, Prod.mk.injEq] at h
        obtain ⟨rfl, rfl⟩ := h
        obtain ⟨u, rfl⟩ := List.isPrefixOf_iff_prefix.1 hp
        exact ⟨p, by simp, hl (p, w) List.mem_cons_self⟩
      · exact ih (fun q hq => hl q (List.mem_cons_of_mem _ hq)) h
  refine key constants ?_ h
  intro p hp
  simp only [constants, List.mem_cons, List.not_mem_nil, or_false] at hp
  rcases hp with rfl | rfl | rfl | rfl | rfl | rfl
  · exact .null
  · exact .true
  · exact .false
  · exact .nan
  · exact .infinity
  · exact .negInfinity

theorem head_cons {s : Str} {c : Char} (h : s.head? = some c) : s = c :: s.drop 1 := by
  cases s with
  | nil => cases h
  | cons d s => simp at h; subst h; rfl

theorem scan_sound (env : JEnv) : ∀ f : Nat,
    (∀ s v r, scan env f s = some (v, r) → ∃ t, s = t ++ r ∧ Part env t (.value v)) ∧
    (∀ d s v r, scanMembers env f d s = some (v, r) → ∃ t l, s = t ++ '}' :: r ∧ Part env t (.members l) ∧
      v = .obj (l.foldl (fun d m => dictSet d m.1 m.2) d)) ∧
    (∀ s l r, scanItems env f s = some (l, r) → ∃ t, s = t ++ ']' :: r ∧ Part env t (.items l)) := by
  intro f
  induction f with
  | zero =>
    refine ⟨?_, ?_, ?_⟩ <;> intros <;> rename_i h <;> simp [scan, scanMembers, scanItems] at h
  | succ f ih =>
    obtain ⟨ihv, ihm, ihi⟩ := ih
    refine ⟨?_, ?_, ?_⟩
    · intro s v r h
      cases s with
      | nil => simp [scan] at h
      | cons c s =>
        rw [scan] at h
        split at h
        · rename_i hc
          subst hc
          rw [Option.map_eq_some_iff] at h
          obtain ⟨⟨x, r'⟩, hx, h⟩ := h
          simp only [Prod.mk.injEq] at h
          obtain ⟨rfl, rfl⟩ := h
          obtain ⟨t, rfl, ht⟩ := scanString_sound env _ _ _ _ hx
          exact ⟨'"' :: (t ++ ['"']), by simp, .str _ _ ht⟩
        · split at h
          · rename_i hc
            subst hc
            obtain ⟨w, hw, hs⟩ := skip_split s
            split at h
            · rename_i hh
              simp only [Option.some.injEq, Prod.mk.injEq] at h
              obtain ⟨rfl, rfl⟩ := h
              refine ⟨'{' :: (w ++ ['}']), ?_, .emptyObj w hw⟩
              rw [List.cons_append, List.append_assoc, List.singleton_append, ← head_cons hh, ← hs]
            · obtain ⟨t, l, ht, hp, rfl⟩ := ihm _ _ _ _ h
              refine ⟨'{' :: (w ++ (t ++ ['}'])), ?_, .obj w t l hw hp⟩
              rw [ht] at hs
              simp [hs]
          · split at h
            · rename_i hc
              subst hc
              obtain ⟨w, hw, hs⟩ := skip_split s
              split at h
              · rename_i hh
                simp only [Option.some.injEq, Prod.mk.injEq] at h
                obtain ⟨rfl, rfl⟩ := h
                refine ⟨'[' :: (w ++ [']']), ?_, .emptyArr w hw⟩
                rw [List.cons_append, List.append_assoc, List.singleton_append, ← head_cons hh, ← hs]
              · rw [Option.map_eq_some_iff] at h
                obtain ⟨⟨x, r'⟩, hx, h⟩ := h
                simp only [Prod.mk.injEq] at h
                obtain ⟨rfl, rfl⟩ := h
                obtain ⟨t, ht, hp⟩ := ihi _ _ _ hx
                refine ⟨'[' :: (w ++ (t ++ [']'])), ?_, .arr w t x hw hp⟩
                rw [ht] at hs
                simp [hs]
            · split at h
              · rename_i x hx
                obtain ⟨v', r'⟩ := x
                simp only [Option.some.injEq, Prod.mk.injEq] at h
                obtain ⟨rfl, rfl⟩ := h
                exact scanConstant_sound env hx
              · rw [Option.map_eq_some_iff] at h
                obtain ⟨⟨x, r'⟩, hx, h⟩ := h
                simp only [Prod.mk.injEq] at h
                obtain ⟨rfl, rfl⟩ := h
                obtain ⟨t, ht, hp⟩ := scanNumber_sound env hx
                exact ⟨t, ht, .num t x hp⟩
    · intro d s v r h
      rw [scanMembers] at h
      split at h
      · cases h
      · rename_i hs
        have hs := head_cons (Decidable.not_not.1 hs)
        split at h
        · cases h
        · rename_i k r₁ hk
          obtain ⟨t, ht, hk'⟩ := scanString_sound env _ _ _ _ hk
          rw [ht] at hs
          subst hs
          split at h
          · cases h
          · rename_i hc
            have hc := head_cons (Decidable.not_not.1 hc)
            obtain ⟨w, hw, hs⟩ := skip_split r₁
            obtain ⟨w', hw', hs'⟩ := skip_split ((skip r₁).drop 1)
            split at h
            · cases h
            · rename_i x r₂ hx
              obtain ⟨t₂, ht₂, hp⟩ := ihv _ _ _ hx
              obtain ⟨w₂, hw₂, hs₂⟩ := skip_split r₂
              rw [hc, hs', ht₂] at hs
              split at h
              · rename_i hh
                simp only [Option.some.injEq, Prod.mk.injEq] at h
                obtain ⟨rfl, rfl⟩ := h
                rw [head_cons hh] at hs₂
                refine ⟨_, _, ?_, .member t k w w' t₂ w₂ x hk' hw hw' hp hw₂, rfl⟩
                rw [hs]
                conv => lhs; rw [hs₂]
                simp
              · split at h
                · rename_i hh
                  obtain ⟨w₃, hw₃, hs₃⟩ := skip_split ((skip r₂).drop 1)
                  obtain ⟨t', l, ht', hp', rfl⟩ := ihm _ _ _ _ h
                  rw [head_cons hh, hs₃, ht'] at hs₂
                  refine ⟨_, _, ?_, .members t k w w' t₂ w₂ w₃ t' x l hk' hw hw' hp hw₂ hw₃ hp', rfl⟩
                  rw [hs]
                  conv => lhs; rw [hs₂]
                  simp
                · cases h
    · intro s l r h
      rw [scanItems] at h
      split at h
      · cases h
      · rename_i x r₂ hx
        obtain ⟨t₂, ht₂, hp⟩ := ihv _ _ _ hx
        obtain ⟨w₂, hw₂, hs₂⟩ := skip_split r₂
        split at h
        · rename_i hh
          simp only [Option.some.injEq, Prod.mk.injEq] at h
          obtain ⟨rfl, rfl⟩ := h
          rw [head_cons hh] at hs₂
          refine ⟨_, ?_, .item t₂ w₂ x hp hw₂⟩
          rw [ht₂]
          conv => lhs; rw [hs₂]
          simp
        · split at h
          · rename_i hh
            rw [Option.map_eq_some_iff] at h
            obtain ⟨⟨l', r'⟩, hl, h⟩ := h
            simp only [Prod.mk.injEq] at h
            obtain ⟨rfl, rfl⟩ := h
            obtain ⟨w₃, hw₃, hs₃⟩ := skip_split ((skip r₂).drop 1)
            obtain ⟨t', ht', hp'⟩ := ihi _ _ _ hl
            rw [head_cons hh, hs₃, ht'] at hs₂
            refine ⟨_, ?_, .items t₂ w₂ w₃ t' x l' hp hw₂ hw₃ hp'⟩
            rw [ht₂]
            conv => lhs; rw [hs₂]
            simp
          · cases h

/-! ## Completeness -/

/-- The first character of a part. -/
def Starts (s : Str) : Meaning → Prop
  | .value _ => ∃ c r, s = c :: r ∧ isWs c = false ∧ c ≠ ']' ∧ c ≠ '}'
  | .items _ => ∃ c r, s = c :: r ∧ isWs c = false ∧ c ≠ ']' ∧ c ≠ '}'
  | .members _ => ∃ r, s = '"' :: r

theorem number_head {env : JEnv} {t : Str} {x : PyNum} (h : NumberText env t x) :
    ∃ c r, t = c :: r ∧ (isDigit c = true ∨ c = '-' ∧ ∃ d r', r = d :: r' ∧ isDigit d = true) := by
  have key : ∀ n : Nat, ∃ c r, (toString n).toList = c :: r ∧ isDigit c = true := by
    intro n
    rw [toString_natStr]
    obtain ⟨d, s, e⟩ := List.exists_cons_of_ne_nil (natStr_ne_nil n)
    exact ⟨d, s, e, (isDigit_iff _).2 (natStr_digit n d (by rw [e]; simp))⟩
  cases h with
  | nat n => obtain ⟨c, r, e, h⟩ := key n; exact ⟨c, r, e, .inl h⟩
  | neg n => obtain ⟨c, r, e, h⟩ := key n; exact ⟨'-', _, rfl, .inr ⟨rfl, c, r, e, h⟩⟩
  | real sign n f e hs hf he hn =>
    obtain ⟨c, r, e', h⟩ := key n
    rcases hs with rfl | rfl
    · exact ⟨c, r ++ f ++ e, by rw [e']; simp, .inl h⟩
    · exact ⟨'-', _, rfl, .inr ⟨rfl, c, r ++ f ++ e, by rw [e']; simp, h⟩⟩

theorem digit_facts {c : Char} (h : isDigit c = true) :
    isWs c = false ∧ c ≠ ']' ∧ c ≠ '}' ∧ c ≠ '"' ∧ c ≠ '{' ∧ c ≠ '[' ∧ c ≠ 'n' ∧ c ≠ 't' ∧ c ≠ 'f' ∧ c ≠ 'N' ∧
      c ≠ 'I' ∧ c ≠ '-' := by
  have hc := (isDigit_iff c).1 h
  have : ∀ n : Fin 128, 48 ≤ (Char.ofNat n.val).toNat ∧ (Char.ofNat n.val).toNat ≤ 57 →
      isWs (Char.ofNat n.val) = false ∧ (Char.ofNat n.val) ≠ ']' ∧ (Char.ofNat n.val) ≠ '}' ∧ (Char.ofNat n.val) ≠ '"' ∧
      (Char.ofNat n.val) ≠ '{' ∧ (Char.ofNat n.val) ≠ '[' ∧ (Char.ofNat n.val) ≠ 'n' ∧ (Char.ofNat n.val) ≠ 't' ∧
      (Char.ofNat n.val) ≠ 'f' ∧ (Char.ofNat n.val) ≠ 'N' ∧ (Char.ofNat n.val) ≠ 'I' ∧ (Char.ofNat n.val) ≠ '-' := by
    decide +kernel
  exact char_lt (P := fun c => 48 ≤ c.toNat ∧ c.toNat ≤ 57 → isWs c = false ∧ c ≠ ']' ∧ c ≠ '}' ∧ c ≠ '"' ∧ c ≠ '{' ∧
    c ≠ '[' ∧ c ≠ 'n' ∧ c ≠ 't' ∧ c ≠ 'f' ∧ c ≠ 'N' ∧ c ≠ 'I' ∧ c ≠ '-') this c (by omega) hc

theorem part_starts {env : JEnv} {t : Str} {m : Meaning} (h : Part env t m) : Starts t m := by
  have app : ∀ {s : Str} (u : Str), (∃ c r, s = c :: r ∧ isWs c = false ∧ c ≠ ']' ∧ c ≠ '}') →
      ∃ c r, s ++ u = c :: r ∧ isWs c = false ∧ c ≠ ']' ∧ c ≠ '}' := by
    rintro s u ⟨c, r, rfl, h⟩
    exact ⟨c, r ++ u, rfl, h⟩
  induction h with
  | null => exact ⟨_, _, rfl, by decide⟩
  | «true» => exact ⟨_, _, rfl, by decide⟩
  | «false» => exact ⟨_, _, rfl, by decide⟩
  | nan => exact ⟨_, _, rfl, by decide⟩
  | infinity => exact ⟨_, _, rfl, by decide⟩
  | negInfinity => exact ⟨_, _, rfl, by decide⟩
  | num t x h =>
    obtain ⟨c, r, e, h'⟩ := number_head h
    subst e
    rcases h' with h' | ⟨rfl, -⟩
    · have := digit_facts h'
      exact ⟨_, _, rfl, this.1, this.2.1, this.2.2.1⟩
    · exact ⟨_, _, rfl, by decide⟩
  | str => exact ⟨_, _, rfl, by decide⟩
  | emptyArr => exact ⟨_, _, rfl, by decide⟩
  | arr => exact ⟨_, _, rfl, by decide⟩
  | emptyObj => exact ⟨_, _, rfl, by decide⟩
  | obj => exact ⟨_, _, rfl, by decide⟩
  | item t w v h hw ih => exact app _ ih
  | items t w w' t' v l h hw hw' h' ih ih' => exact app _ ih
  | member => exact ⟨_, rfl⟩
  | members => exact ⟨_, rfl⟩

theorem skip_starts {s : Str} (h : ∃ c r, s = c :: r ∧ isWs c = false ∧ c ≠ ']' ∧ c ≠ '}') (u : Str) :
    skip (s ++ u) = s ++ u ∧ (s ++ u).head? ≠ some ']' ∧ (s ++ u).head? ≠ some '}' := by
  obtain ⟨c, r, rfl, h1, h2, h3⟩ := h
  refine ⟨skip_cons h1 _, by simpa using h2, by simpa using h3⟩

theorem scanConstant_none {c : Char} {s : Str}
    (h : isDigit c = true ∨ c = '-' ∧ ∃ d r', s = d :: r' ∧ isDigit d = true) : scanConstant (c :: s) constants = none := by
  have key : ∀ l : List (Str × JVal), (∀ p ∈ l, p.1.isPrefixOf (c :: s) = false) → scanConstant (c :: s) l = none := by
    intro l
    induction l with
    | nil => intro _; rfl
    | cons p l ih =>
      intro hl
      obtain ⟨p, w⟩ := p
      rw [scanConstant, if_neg (by simp [hl (p, w) List.mem_cons_self])]
      exact ih fun q hq => hl q (List.mem_cons_of_mem _ hq)
  have hp : ∀ p ∈ constants, ∃ a q, p.1 = a :: q ∧
      ((a = 'n' ∨ a = 't' ∨ a = 'f' ∨ a = 'N' ∨ a = 'I') ∨ a = '-' ∧ ∃ q', q = 'I' :: q') := by
    intro p hp
    simp only [constants, List.mem_cons, List.not_mem_nil, or_false] at hp
    rcases hp with rfl | rfl | rfl | rfl | rfl | rfl
    · exact ⟨'n', _, rfl, by simp⟩
    · exact ⟨'t', _, rfl, by simp⟩
    · exact ⟨'f', _, rfl, by simp⟩
    · exact ⟨'N', _, rfl, by simp⟩
    · exact ⟨'I', _, rfl, by simp⟩
    · exact ⟨'-', _, rfl, .inr ⟨rfl, _, rfl⟩⟩
  refine key constants ?_
  intro p hp'
  obtain ⟨a, q, e, hq⟩ := hp p hp'
  rw [e, List.isPrefixOf]
  rcases h with h | ⟨rfl, d, r, rfl, h⟩
  · obtain ⟨-, -, -, -, -, -, h1, h2, h3, h4, h5, h6⟩ := digit_facts h
    have : a ≠ c := by
      rintro rfl
      rcases hq with (h | h | h | h | h) | ⟨h, -⟩
      · exact h1 h
      · exact h2 h
      · exact h3 h
      · exact h4 h
      · exact h5 h
      · exact h6 h
    simp [this]
  · obtain ⟨-, -, -, -, -, -, -, -, -, -, h5, -⟩ := digit_facts h
    rcases hq with hq | ⟨rfl, q', rfl⟩
    · have : a ≠ '-' := by rcases hq with rfl | rfl | rfl | rfl | rfl <;> decide
      simp [this]
    · rw [List.isPrefixOf]
      have : ('I' == d) = false := by simpa using Ne.symm h5
      simp [this]

theorem follow_ws {w : Str} (hw : Blank w) {c : Char} (hc : c = ',' ∨ c = ']' ∨ c = '}') (r : Str) : Follow (w ++ c :: r) := by
  intro d hd
  cases w with
  | nil =>
    simp at hd
    subst hd
    exact .inr hc
  | cons e w =>
    simp at hd
    subst hd
    exact .inl ((blank_iff _).1 hw e List.mem_cons_self)

theorem scan_complete (env : JEnv) {t : Str} {m : Meaning} (h : Part env t m) :
    match m with
    | .value v => ∀ f r, t.length ≤ f → Follow r → scan env f (t ++ r) = some (v, r)
    | .items l => ∀ f r, t.length < f → scanItems env f (t ++ ']' :: r) = some (l, r)
    | .members l => ∀ f r d, t.length < f → scanMembers env f d (t ++ '}' :: r) =
        some (.obj (l.foldl (fun d m => dictSet d m.1 m.2) d), r) := by
  have ws : ∀ {w : Str} (_ : Blank w) {c : Char} (_ : isWs c = false) (r : Str), skip (w ++ c :: r) = c :: r := by
    intro w hw c hc r
    rw [skip_blank hw, skip_cons hc]
  have pos : ∀ {s : Str} {f : Nat}, s ≠ [] → s.length ≤ f → ∃ g, f = g + 1 := by
    intro s f hs hf
    have := List.length_pos_iff.2 hs
    exact ⟨f - 1, by omega⟩
  induction h with
  | null =>
    intro f r hf hr
    obtain ⟨f, rfl⟩ := pos (by decide) hf
    rfl
  | «true» =>
    intro f r hf hr
    obtain ⟨f, rfl⟩ := pos (by decide) hf
    rfl
  | «false» =>
    intro f r hf hr
    obtain ⟨f, rfl⟩ := pos (by decide) hf
    rfl
  | nan =>
    intro f r hf hr
    obtain ⟨f, rfl⟩ := pos (by decide) hf
    rfl
  | infinity =>
    intro f r hf hr
    obtain ⟨f, rfl⟩ := pos (by decide) hf
    rfl
  | negInfinity =>
    intro f r hf hr
    obtain ⟨f, rfl⟩ := pos (by decide) hf
    rfl
  | num t x h =>
    intro f r hf hr
    obtain ⟨c, s, rfl, hc⟩ := number_head h
    obtain ⟨f, rfl⟩ := pos (by simp) hf
    have h1 : c ≠ '"' ∧ c ≠ '{' ∧ c ≠ '[' := by
      rcases hc with hc | ⟨rfl, -⟩
      · have := digit_facts hc; exact ⟨this.2.2.2.1, this.2.2.2.2.1, this.2.2.2.2.2.1⟩
      · decide
    have h2 : scanConstant ((c :: s) ++ r) constants = none := by
      refine scanConstant_none ?_
      rcases hc with hc | ⟨rfl, d, r', rfl, hd⟩
      · exact .inl hc
      · exact .inr ⟨rfl, d, r' ++ r, rfl, hd⟩
    have h3 := scanNumber_complete env h hr
    rw [List.cons_append] at h2 h3 ⊢
    rw [scan]
    simp only [h1.1, h1.2.1, h1.2.2, if_false, h2, h3, Option.map_some]
  | str t s h =>
    intro f r hf hr
    obtain ⟨f, rfl⟩ := pos (by simp) hf
    rw [List.cons_append, scan]
    simp only [if_true, List.append_assoc, List.singleton_append]
    rw [scanString_complete env h _ (by simp; omega)]
    rfl
  | emptyArr w hw =>
    intro f r hf hr
    obtain ⟨f, rfl⟩ := pos (by simp) hf
    rw [List.cons_append, scan]
    have : skip (w ++ [']'] ++ r) = ']' :: r := by simpa using ws hw (c := ']') (by decide) r
    simp only [this]
    rfl
  | arr w t l hw h ih =>
    intro f r hf hr
    obtain ⟨f, rfl⟩ := pos (by simp) hf
    simp only at ih
    rw [List.cons_append, scan]
    have hs := skip_starts (part_starts h) (']' :: r)
    have : skip (w ++ (t ++ [']']) ++ r) = t ++ ']' :: r := by
      rw [List.append_assoc, skip_blank hw]
      simpa using hs.1
    simp only [this, hs.2.1, if_false]
    rw [ih f r (by simp at hf; omega)]
    simp
  | emptyObj w hw =>
    intro f r hf hr
    obtain ⟨f, rfl⟩ := pos (by simp) hf
    rw [List.cons_append, scan]
    have : skip (w ++ ['}'] ++ r) = '}' :: r := by simpa using ws hw (c := '}') (by decide) r
    simp only [this]
    rfl
  | obj w t l hw h ih =>
    intro f r hf hr
    obtain ⟨f, rfl⟩ := pos (by simp) hf
    simp only at ih
    rw [List.cons_append, scan]
    obtain ⟨u, hu⟩ := part_starts h
    have hs : skip (t ++ '}' :: r) = t ++ '}' :: r ∧ (t ++ '}' :: r).head? ≠ some '}' := by
      rw [hu]
      exact ⟨skip_cons (by decide) _, by simp⟩
    have : skip (w ++ (t ++ ['}']) ++ r) = t ++ '}' :: r := by
      rw [List.append_assoc, skip_blank hw]
      simpa using hs.1
    simp only [this, hs.2, if_false]
    rw [ih f r [] (by simp at hf; omega)]
    simp [dictOf]
  | item t w v h hw ih =>
    intro f r hf
    simp only at ih
    obtain ⟨f, rfl⟩ : ∃ g, f = g + 1 := ⟨f - 1, by omega⟩
    rw [scanItems, List.append_assoc, ih f _ (by simp at hf; omega) (follow_ws hw (.inr (.inl rfl)) r)]
    simp [ws hw (c := ']') (by decide)]
  | items t w w' t' v l h hw hw' h' ih ih' =>
    intro f r hf
    simp only at ih ih'
    obtain ⟨f, rfl⟩ : ∃ g, f = g + 1 := ⟨f - 1, by omega⟩
    have e : t ++ (w ++ ',' :: (w' ++ t')) ++ ']' :: r = t ++ (w ++ ',' :: (w' ++ (t' ++ ']' :: r))) := by simp
    have hs := skip_starts (part_starts h') (']' :: r)
    simp only [List.length_append, List.length_cons] at hf
    rw [scanItems, e, ih f _ (by omega) (follow_ws hw (.inl rfl) _)]
    simp only [ws hw (c := ',') (by decide), List.head?_cons, List.drop_succ_cons, List.drop_zero, skip_blank hw', hs.1,
      ih' f r (by omega)]
    simp
  | member k n w w' t w'' v hk hw hw' h hw'' ih =>
    intro f r d hf
    simp only at ih
    obtain ⟨f, rfl⟩ : ∃ g, f = g + 1 := ⟨f - 1, by omega⟩
    have e : '"' :: (k ++ '"' :: (w ++ ':' :: (w' ++ (t ++ w'')))) ++ '}' :: r =
        '"' :: (k ++ '"' :: (w ++ ':' :: (w' ++ (t ++ (w'' ++ '}' :: r))))) := by simp
    have hs := skip_starts (part_starts h) (w'' ++ '}' :: r)
    simp only [List.length_append, List.length_cons] at hf
    rw [scanMembers, e]
    simp only [List.head?_cons, ne_eq, not_true, if_false, List.drop_succ_cons, List.drop_zero]
    rw [scanString_complete env hk _ (by simp; omega)]
    simp only [ws hw (c := ':') (by decide), List.head?_cons, not_true, if_false, List.drop_succ_cons,
      List.drop_zero, skip_blank hw', hs.1]
    rw [ih f _ (by omega) (follow_ws hw'' (.inr (.inr rfl)) _)]
    simp [ws hw'' (c := '}') (by decide)]
  | members k n w w' t w'' w₃ t' v l hk hw hw' h hw'' hw₃ h' ih ih' =>
    intro f r d hf
    simp only at ih ih'
    obtain ⟨f, rfl⟩ : ∃ g, f = g + 1 := ⟨f - 1, by omega⟩
    have e : '"' :: (k ++ '"' :: (w ++ ':' :: (w' ++ (t ++ (w'' ++ ',' :: (w₃ ++ t')))))) ++ '}' :: r =
        '"' :: (k ++ '"' :: (w ++ ':' :: (w' ++ (t ++ (w'' ++ ',' :: (w₃ ++ (t' ++ '}' :: r))))))) := by simp
    have hs := skip_starts (part_starts h) (w'' ++ ',' :: (w₃ ++ (t' ++ '}' :: r)))
    obtain ⟨u, hu⟩ := part_starts h'
    have hs' : skip (t' ++ '}' :: r) = t' ++ '}' :: r := by
      rw [hu]
      exact skip_cons (by decide) _
    simp only [List.length_append, List.length_cons] at hf
    rw [scanMembers, e]
    simp only [List.head?_cons, ne_eq, not_true, if_false, List.drop_succ_cons, List.drop_zero]
    rw [scanString_complete env hk _ (by simp; omega)]
    simp only [ws hw (c := ':') (by decide), List.head?_cons, not_true, if_false, List.drop_succ_cons,
      List.drop_zero, skip_blank hw', hs.1]
    rw [ih f _ (by omega) (follow_ws hw'' (.inl rfl) _)]
    simp only [ws hw'' (c := ',') (by decide), List.head?_cons, List.drop_succ_cons, List.drop_zero, skip_blank hw₃, hs',
      ih' f r _ (by omega)]
    simp

theorem loadsText_iff (env : JEnv) (s : Str) (v : JVal) : loadsText env s = some v ↔ JsonText env s v := by
  constructor
  · intro h
    unfold loadsText at h
    split at h
    · cases h
    · rename_i x r hx
      obtain ⟨t, ht, hp⟩ := (scan_sound env _).1 _ _ _ hx
      split at h
      · rename_i hr
        cases h
        obtain ⟨w, hw, hs⟩ := skip_split s
        obtain ⟨w', hw', hs'⟩ := skip_split r
        rw [hr, List.append_nil] at hs'
        subst hs'
        exact ⟨w, t, r, by rw [← ht]; exact hs, hw, hw', hp⟩
      · cases h
  · rintro ⟨w, t, w', rfl, hw, hw', h⟩
    have hs := (skip_starts (part_starts h) w').1
    have hf : Follow w' := by
      intro c hc
      cases w' with
      | nil => cases hc
      | cons d w' => simp at hc; subst hc; exact .inl ((blank_iff _).1 hw' _ List.mem_cons_self)
    have hsk : skip w' = [] := by
      have := skip_blank hw' []
      rw [List.append_nil] at this
      rw [this]
      rfl
    unfold loadsText
    have := scan_complete env h (t ++ w').length w' (by simp) hf
    rw [skip_blank hw, hs, this]
    simp [hsk]

end CBus.Json
