import Verif.Spec.OptParse

/-! # Reading command lines as `optparse` does -/

namespace CBus.Lemmas
open CBus CBus.Spec CBus.OptParse

variable {δ : Type}

/-- No two options have a name in common. -/
structure Distinct (t : Table δ) : Prop where
  long : (t.long.map (·.1)).Nodup
  short : (t.short.map (·.1)).Nodup

theorem lookup_some {κ : Type} [BEq κ] [LawfulBEq κ] (l : List (κ × δ)) (hn : (l.map (·.1)).Nodup) (k : κ) (d : δ) :
    l.lookup k = some d ↔ (k, d) ∈ l := by
  induction l with
  | nil => simp
  | cons x l ih =>
    obtain ⟨k', d'⟩ := x
    simp only [List.map_cons, List.nodup_cons] at hn
    simp only [List.lookup_cons, List.mem_cons, Prod.mk.injEq]
    by_cases h : k = k'
    · subst h
      simp only [beq_self_eq_true, Option.some.injEq, true_and]
      constructor
      · rintro rfl; exact .inl rfl
      · rintro (rfl | h)
        · rfl
        · exact absurd (List.mem_map_of_mem (f := (·.1)) h) hn.1
    · have : (k == k') = false := by simpa using h
      simp only [this, h, false_and, false_or]
      exact ih hn.2

theorem lookup_none {κ : Type} [BEq κ] [LawfulBEq κ] (l : List (κ × δ)) (k : κ) :
    l.lookup k = none ↔ ∀ d, (k, d) ∉ l := by
  induction l with
  | nil => simp
  | cons x l ih =>
    obtain ⟨k', d'⟩ := x
    simp only [List.lookup_cons, List.mem_cons, Prod.mk.injEq]
    by_cases h : k = k'
    · subst h
      simp only [beq_self_eq_true, reduceCtorEq, true_and, false_iff]
      intro h
      exact h d' (.inl rfl)
    · have : (k == k') = false := by simpa using h
      simp only [this, h, false_and, false_or]
      exact ih

theorem filter_one {κ : Type} (l : List (κ × δ)) (hn : (l.map (·.1)).Nodup) (p : κ × δ → Bool) (x : κ × δ) :
    l.filter p = [x] ↔ x ∈ l ∧ p x = true ∧ ∀ y ∈ l, p y = true → y.1 = x.1 := by
  induction l with
  | nil => simp
  | cons y l ih =>
    simp only [List.map_cons, List.nodup_cons] at hn
    rw [List.filter_cons]
    cases hp : p y with
    | true =>
      simp only [if_true, List.cons.injEq, List.filter_eq_nil_iff, List.mem_cons]
      constructor
      · rintro ⟨rfl, h⟩
        refine ⟨.inl rfl, hp, ?_⟩
        rintro z (rfl | hz) hz'
        · rfl
        · exact absurd hz' (h z hz)
      · rintro ⟨hx, hx', h⟩
        have hy := h y (.inl rfl) hp
        have hxy : y = x := by
          rcases hx with rfl | hx
          · rfl
          · exact absurd (hy ▸ List.mem_map_of_mem (f := (·.1)) hx) hn.1
        subst hxy
        refine ⟨rfl, fun z hz hz' => hn.1 ?_⟩
        rw [← h z (.inr hz) hz']
        exact List.mem_map_of_mem (f := (·.1)) hz
    | false =>
      simp only [Bool.false_eq_true, if_false, List.mem_cons]
      rw [ih hn.2]
      constructor
      · rintro ⟨h1, h2, h3⟩
        refine ⟨.inr h1, h2, ?_⟩
        rintro z (rfl | hz) hz'
        · rw [hp] at hz'; cases hz'
        · exact h3 z hz hz'
      · rintro ⟨h1 | h1, h2, h3⟩
        · subst h1; rw [hp] at h2; cases h2
        · exact ⟨h1, h2, fun z hz => h3 z (.inr hz)⟩

theorem matchLong_iff (t : Table δ) (ht : Distinct t) (n : Str) (d : δ) :
    matchLong t n = some d ↔ LongName t n d := by
  unfold matchLong LongName
  cases h : t.long.lookup n with
  | some d' =>
    have h' := (lookup_some _ ht.long n d').1 h
    simp only [Option.some.injEq]
    constructor
    · rintro rfl; exact .inl h'
    · rintro (h2 | ⟨h2, -⟩)
      · rw [← lookup_some _ ht.long, h] at h2
        injection h2
      · exact absurd h' (h2 d')
  | none =>
    have h' := (lookup_none _ n).1 h
    have h1 : (n, d) ∉ t.long := h' d
    simp only [h1, false_or]
    constructor
    · intro hm
      split at hm
      · rename_i x hx
        injection hm with hm
        subst hm
        obtain ⟨h2, h3, h4⟩ := (filter_one _ ht.long _ _).1 hx
        refine ⟨h', x.1, h2, List.isPrefixOf_iff_prefix.1 h3, fun o' d' ho hp => h4 (o', d') ho (List.isPrefixOf_iff_prefix.2 hp)⟩
      · cases hm
    · rintro ⟨-, o, h2, h3, h4⟩
      have := (filter_one t.long ht.long (fun x => n.isPrefixOf x.1) (o, d)).2
        ⟨h2, List.isPrefixOf_iff_prefix.2 h3, fun y hy hp => h4 y.1 y.2 hy (List.isPrefixOf_iff_prefix.1 hp)⟩
      rw [this]

/-- What is left open. -/
def nextOf : Option δ → Next δ
  | none => .done
  | some d => .pending d

theorem letters_iff (t : Table δ) (ht : Distinct t) (s : Str) : ∀ is p,
    shortOpts t s = (is, nextOf p) ↔ Letters t s is p := by
  induction s with
  | nil =>
    intro is p
    constructor
    · intro h
      cases p with
      | none => simp [shortOpts, nextOf] at h; subst h; exact .nil
      | some d => simp [shortOpts, nextOf] at h
    · intro h
      cases h
      rfl
  | cons c cs ih =>
    intro is p
    unfold shortOpts
    cases h : t.short.lookup c with
    | none =>
      have h' := (lookup_none _ c).1 h
      constructor
      · intro h2
        cases p <;> simp [nextOf] at h2
      · intro h2
        cases h2 with
        | flag _ d _ _ _ hm => exact absurd hm (h' d)
        | joined _ d _ hm => exact absurd hm (h' d)
        | opens _ d hm => exact absurd hm (h' d)
    | some d =>
      have h' := (lookup_some _ ht.short c d).1 h
      have uniq : ∀ d', (c, d') ∈ t.short → d' = d := by
        intro d' hd
        rw [← lookup_some _ ht.short, h] at hd
        injection hd with hd
        exact hd.symm
      cases hf : t.takes d with
      | true =>
        simp only [hf, if_true]
        by_cases hc : cs = []
        · subst hc
          simp only [if_true]
          constructor
          · intro h2
            cases p with
            | none => simp [nextOf] at h2
            | some d' =>
              simp only [nextOf, Prod.mk.injEq, Next.pending.injEq] at h2
              obtain ⟨rfl, rfl⟩ := h2
              exact .opens c d h' hf
          · intro h2
            cases h2 with
            | flag _ d' _ _ _ hm hf' => rw [uniq d' hm, hf] at hf'; cases hf'
            | joined _ d' _ hm hf' hv => exact absurd rfl hv
            | opens _ d' hm => rw [uniq d' hm]; rfl
        · rw [if_neg hc]
          constructor
          · intro h2
            cases p with
            | some d' => simp [nextOf] at h2
            | none =>
              simp only [nextOf, Prod.mk.injEq, and_true] at h2
              subst h2
              exact .joined c d cs h' hf hc
          · intro h2
            cases h2 with
            | flag _ d' _ _ _ hm hf' => rw [uniq d' hm, hf] at hf'; cases hf'
            | joined _ d' _ hm hf' hv => rw [uniq d' hm]; rfl
            | opens _ d' hm => exact absurd rfl hc
      | false =>
        simp only [hf, Bool.false_eq_true, if_false, Prod.mk.injEq]
        constructor
        · rintro ⟨h1, h2⟩
          subst h1
          exact .flag c d cs _ p h' hf ((ih _ p).1 (by rw [← h2]))
        · intro h2
          cases h2 with
          | flag _ d' _ _ _ hm hf' hs =>
            rw [uniq d' hm]
            have := (ih _ p).2 hs
            rw [this]
            exact ⟨rfl, rfl⟩
          | joined _ d' _ hm hf' hv => rw [uniq d' hm, hf] at hf'; cases hf'
          | opens _ d' hm hf' => rw [uniq d' hm, hf] at hf'; cases hf'

theorem takeWhile_no_equals (n : Str) (h : '=' ∉ n) (r : Str) :
    (n ++ '=' :: r).takeWhile (· ≠ '=') = n ∧ (n ++ '=' :: r).dropWhile (· ≠ '=') = '=' :: r ∧
    n.takeWhile (· ≠ '=') = n ∧ n.dropWhile (· ≠ '=') = [] := by
  induction n with
  | nil => simp
  | cons c n ih =>
    simp only [List.mem_cons, not_or] at h
    obtain ⟨h1, h2, h3, h4⟩ := ih h.2
    have hc : c ≠ '=' := fun e => h.1 e.symm
    refine ⟨?_, ?_, ?_, ?_⟩
    · simp only [List.cons_append, List.takeWhile_cons, hc, ne_eq, not_false_eq_true, decide_true, if_true, List.cons.injEq, true_and]
      exact h1
    · simp only [List.cons_append, List.dropWhile_cons, hc, ne_eq, not_false_eq_true, decide_true, if_true]
      exact h2
    · simp only [List.takeWhile_cons, hc, ne_eq, not_false_eq_true, decide_true, if_true, List.cons.injEq, true_and]
      exact h3
    · simp only [List.dropWhile_cons, hc, ne_eq, not_false_eq_true, decide_true, if_true]
      exact h4

/-- Every word is cut at its first `=` if it has one. -/
theorem cut_equals (w : Str) : ('=' ∉ w) ∨ ∃ n v, w = n ++ '=' :: v ∧ '=' ∉ n := by
  induction w with
  | nil => exact .inl (by simp)
  | cons c w ih =>
    by_cases hc : c = '='
    · subst hc; exact .inr ⟨[], w, rfl, by simp⟩
    · rcases ih with h | ⟨n, v, rfl, hn⟩
      · left
        simp only [List.mem_cons, not_or]
        exact ⟨fun e => hc e.symm, h⟩
      · right
        refine ⟨c :: n, v, rfl, ?_⟩
        simp only [List.mem_cons, not_or]
        exact ⟨fun e => hc e.symm, hn⟩

theorem prefix_no_equals (n v : Str) : "--".toList <+: n ++ '=' :: v ↔ "--".toList <+: n := by
  match n with
  | [] => simp
  | [c] => simp
  | c :: c' :: n => simp

theorem readArg (t : Table δ) (w : Str) (ws : List Str) (hw : w.head? ≠ some '-' ∨ w = ['-']) :
    read t none (w :: ws) = ((read t none ws).1, (read t none ws).2.map (w :: ·)) := by
  rw [OptParse.read, if_neg, if_neg]
  · rcases hw with h | rfl
    · exact fun h' => h h'.1
    · simp
  · rintro rfl
    rcases hw with h | h
    · exact h rfl
    · cases h

theorem readLong (t : Table δ) (w : Str) (ws : List Str) (h1 : "--".toList <+: w) (h2 : w ≠ "--".toList) :
    read t none (w :: ws) =
      match (longOpt t w).2 with
      | .bad => ((longOpt t w).1, none)
      | .done => ((longOpt t w).1 ++ (read t none ws).1, (read t none ws).2)
      | .pending d => ((longOpt t w).1 ++ (read t (some d) ws).1, (read t (some d) ws).2) := by
  have hp := List.isPrefixOf_iff_prefix.2 h1
  rw [OptParse.read, if_neg h2, if_pos, if_pos hp]
  · rfl
  · obtain ⟨r, rfl⟩ := h1
    exact ⟨rfl, by simp⟩

theorem readShort (t : Table δ) (s : Str) (ws : List Str) (h1 : s ≠ []) (h2 : s.head? ≠ some '-') :
    read t none (('-' :: s) :: ws) =
      match (shortOpts t s).2 with
      | .bad => ((shortOpts t s).1, none)
      | .done => ((shortOpts t s).1 ++ (read t none ws).1, (read t none ws).2)
      | .pending d => ((shortOpts t s).1 ++ (read t (some d) ws).1, (read t (some d) ws).2) := by
  have hn : ¬ "--".toList.isPrefixOf ('-' :: s) = true := by
    cases s with
    | nil => exact absurd rfl h1
    | cons c s =>
      intro h
      simp at h h2
      exact h2 h.symm
  rw [OptParse.read, if_neg, if_pos, if_neg hn]
  · rfl
  · cases s with
    | nil => exact absurd rfl h1
    | cons c s => exact ⟨rfl, by simp⟩
  · intro h
    injection h with _ h
    subst h
    exact h2 rfl

theorem line_read (t : Table δ) (ht : Distinct t) (ws : List Str) (is : List (δ × Str)) (as : List Str)
    (h : OptLine t ws is as) : read t none ws = (is, some as) := by
  induction h with
  | nil => rfl
  | stop ws => rw [OptParse.read, if_pos rfl]
  | word w ws is as hw _ ih => rw [readArg t w ws hw, ih]; rfl
  | flag n d ws is as hn hd hne he hf _ ih =>
    have hm := (matchLong_iff t ht n d).2 hn
    obtain ⟨-, -, h3, h4⟩ := takeWhile_no_equals n he []
    have : longOpt t n = ([(d, [])], .done) := by
      simp only [longOpt, h3, h4, hm, hf, Bool.false_eq_true, if_false]
    rw [readLong t n ws hd hne, this, ih]
    rfl
  | equals n d v ws is as hn hd he hf _ ih =>
    have hm := (matchLong_iff t ht n d).2 hn
    obtain ⟨h3, h4, -, -⟩ := takeWhile_no_equals n he v
    have : longOpt t (n ++ '=' :: v) = ([(d, v)], .done) := by
      simp only [longOpt, h3, h4, hm, hf, if_true]
    rw [readLong t _ ws ((prefix_no_equals n v).2 hd), this, ih]
    · rfl
    · intro e
      have : '=' ∈ "--".toList := by rw [← e]; simp
      exact absurd this (by decide)
  | next n d v ws is as hn hd hne he hf _ ih =>
    have hm := (matchLong_iff t ht n d).2 hn
    obtain ⟨-, -, h3, h4⟩ := takeWhile_no_equals n he []
    have : longOpt t n = ([], .pending d) := by
      simp only [longOpt, h3, h4, hm, hf, if_true]
    rw [readLong t n _ hd hne, this]
    simp only [OptParse.read, ih, List.nil_append]
  | letters s ws js is as hs hne hd _ ih =>
    have := (letters_iff t ht s js none).2 hs
    rw [readShort t s ws hne hd, this, ih]
    rfl
  | lettersNext s d v ws js is as hs hd _ ih =>
    have := (letters_iff t ht s js (some d)).2 hs
    rw [readShort t s _ _ hd, this]
    · simp only [nextOf, OptParse.read, ih]
    · rintro rfl; cases hs

theorem read_line (t : Table δ) (ht : Distinct t) (ws : List Str) :
    (∀ is as, read t none ws = (is, some as) → OptLine t ws is as) ∧
    (∀ d is as, read t (some d) ws = (is, some as) →
      ∃ v ws' is', ws = v :: ws' ∧ is = (d, v) :: is' ∧ OptLine t ws' is' as) := by
  induction ws with
  | nil =>
    constructor
    · intro is as h
      simp [OptParse.read] at h
      obtain ⟨rfl, rfl⟩ := h
      exact .nil
    · intro d is as h
      simp [OptParse.read] at h
  | cons w ws ih =>
    obtain ⟨ih1, ih2⟩ := ih
    constructor
    · intro is as h
      by_cases hw : w.head? ≠ some '-' ∨ w = ['-']
      · rw [readArg t w ws hw] at h
        generalize hr : read t none ws = r at h
        obtain ⟨js, bs⟩ := r
        cases bs with
        | none => simp at h
        | some bs =>
          simp only [Option.map_some, Prod.mk.injEq, Option.some.injEq] at h
          obtain ⟨rfl, rfl⟩ := h
          exact .word w ws js bs hw (ih1 _ _ hr)
      · simp only [not_or, ne_eq, Decidable.not_not] at hw
        obtain ⟨hw1, hw2⟩ := hw
        obtain ⟨s, rfl⟩ : ∃ s, w = '-' :: s := by
          cases w with
          | nil => cases hw1
          | cons c s => injection hw1 with e; subst e; exact ⟨s, rfl⟩
        have hs : s ≠ [] := by rintro rfl; exact hw2 rfl
        by_cases hd : s.head? = some '-'
        · obtain ⟨s', rfl⟩ : ∃ s', s = '-' :: s' := by
            cases s with
            | nil => cases hd
            | cons c s => injection hd with e; subst e; exact ⟨s, rfl⟩
          by_cases hs' : s' = []
          · subst hs'
            rw [OptParse.read, if_pos (show ['-', '-'] = "--".toList from rfl)] at h
            simp only [Prod.mk.injEq, Option.some.injEq] at h
            obtain ⟨rfl, rfl⟩ := h
            exact .stop ws
          · have hp : "--".toList <+: '-' :: '-' :: s' := ⟨s', rfl⟩
            have hne : '-' :: '-' :: s' ≠ "--".toList := by
              intro e; injection e with _ e; injection e with _ e; exact hs' e
            generalize '-' :: '-' :: s' = w at *
            rw [readLong t w ws hp hne] at h
            rcases cut_equals w with he | ⟨n, v, rfl, he⟩
            · obtain ⟨-, -, h3, h4⟩ := takeWhile_no_equals w he []
              unfold longOpt at h
              rw [h3, h4] at h
              cases hm : matchLong t w with
              | none => simp [hm] at h
              | some d =>
                have hn := (matchLong_iff t ht w d).1 hm
                simp only [hm] at h
                cases hf : t.takes d with
                | true =>
                  simp only [hf, if_true, List.nil_append] at h
                  obtain ⟨v, ws', is', rfl, rfl, hl⟩ := ih2 d is as h
                  exact .next w d v ws' is' as hn hp hne he hf hl
                | false =>
                  simp only [hf, Bool.false_eq_true, if_false, List.cons_append, List.nil_append] at h
                  generalize hr : read t none ws = r at h
                  obtain ⟨js, bs⟩ := r
                  simp only [Prod.mk.injEq] at h
                  obtain ⟨rfl, rfl⟩ := h
                  exact .flag w d ws js as hn hp hne he hf (ih1 _ _ hr)
            · obtain ⟨h3, h4, -, -⟩ := takeWhile_no_equals n he v
              unfold longOpt at h
              rw [h3, h4] at h
              cases hm : matchLong t n with
              | none => simp [hm] at h
              | some d =>
                have hn := (matchLong_iff t ht n d).1 hm
                simp only [hm] at h
                cases hf : t.takes d with
                | true =>
                  simp only [hf, if_true, List.cons_append, List.nil_append] at h
                  generalize hr : read t none ws = r at h
                  obtain ⟨js, bs⟩ := r
                  simp only [Prod.mk.injEq] at h
                  obtain ⟨rfl, rfl⟩ := h
                  exact .equals n d v ws js as hn ((prefix_no_equals n v).1 hp) he hf (ih1 _ _ hr)
                | false => simp [hf] at h
        · rw [readShort t s ws hs hd] at h
          generalize ho : shortOpts t s = o at h
          obtain ⟨js, nx⟩ := o
          cases nx with
          | bad => simp at h
          | done =>
            have hl := (letters_iff t ht s js none).1 ho
            simp only at h
            generalize hr : read t none ws = r at h
            obtain ⟨ks, bs⟩ := r
            simp only [Prod.mk.injEq] at h
            obtain ⟨rfl, rfl⟩ := h
            exact .letters s ws js ks as hl hs hd (ih1 _ _ hr)
          | pending d =>
            have hl := (letters_iff t ht s js (some d)).1 ho
            simp only at h
            generalize hr : read t (some d) ws = r at h
            obtain ⟨ks, bs⟩ := r
            simp only [Prod.mk.injEq] at h
            obtain ⟨rfl, rfl⟩ := h
            obtain ⟨v, ws', is', rfl, rfl, hl'⟩ := ih2 d ks as hr
            exact .lettersNext s d v ws' js is' as hl hd hl'
    · intro d is as h
      rw [OptParse.read] at h
      generalize hr : read t none ws = r at h
      obtain ⟨js, bs⟩ := r
      simp only [Prod.mk.injEq] at h
      obtain ⟨rfl, rfl⟩ := h
      exact ⟨w, ws, js, rfl, rfl, ih1 _ _ hr⟩

/-- Exactly the command lines are read without an error. -/
theorem read_iff (t : Table δ) (ht : Distinct t) (ws : List Str) (is : List (δ × Str)) (as : List Str) :
    read t none ws = (is, some as) ↔ OptLine t ws is as :=
  ⟨(read_line t ht ws).1 is as, line_read t ht ws is as⟩

end CBus.Lemmas
