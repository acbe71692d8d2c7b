import Verif.Lemmas.Url

/-! # `urlsplit` of a reference -/

namespace CBus.Url
open CBus CBus.Spec

theorem cut_mem (c : Char) (a b : Str) (h : c ∉ a) : cut c (a ++ c :: b) = (a, b) := by
  unfold cut
  have h1 : (a ++ c :: b).takeWhile (· ≠ c) = a := by
    induction a with
    | nil => simp
    | cons x a ih =>
      simp only [List.mem_cons, not_or] at h
      have hx : x ≠ c := fun e => h.1 e.symm
      simpa [hx] using ih h.2
  have h2 : (a ++ c :: b).dropWhile (· ≠ c) = c :: b := by
    induction a with
    | nil => simp
    | cons x a ih =>
      simp only [List.mem_cons, not_or] at h
      have hx : x ≠ c := fun e => h.1 e.symm
      have h1' : (a ++ c :: b).takeWhile (· ≠ c) = a := by
        simpa [hx] using h1
      simpa [hx] using ih h.2 h1'
  rw [h1, h2]
  rfl

theorem while_all {α : Type} (p : α → Bool) (l : List α) (h : ∀ x ∈ l, p x = true) :
    l.takeWhile p = l ∧ l.dropWhile p = [] := by
  induction l with
  | nil => exact ⟨rfl, rfl⟩
  | cons a l ih =>
    obtain ⟨h1, h2⟩ := ih fun x hx => h x (List.mem_cons_of_mem _ hx)
    have ha := h a List.mem_cons_self
    simp [ha, h1, h2]

theorem cut_not_mem (c : Char) (a : Str) (h : c ∉ a) : cut c a = (a, []) := by
  unfold cut
  obtain ⟨h1, h2⟩ := while_all (fun x => decide (x ≠ c)) a (by
    intro x hx
    rw [decide_eq_true_iff]
    rintro rfl
    exact h hx)
  rw [h1, h2]
  rfl

/-- `?query` and `#fragment`. -/
def queryText (q : Option Str) : Str := match q with | some q => '?' :: q | none => []
def fragmentText (f : Option Str) : Str := match f with | some f => '#' :: f | none => []
def schemeText (s : Option Str) : Str := match s with | some s => s ++ [':'] | none => []
def authorityText (a : Option Str) : Str := match a with | some a => '/' :: '/' :: a | none => []

theorem text_eq (r : Ref) : r.text = schemeText r.scheme ++ (authorityText r.authority ++ (r.path ++ (queryText r.query ++
    fragmentText r.fragment))) := by
  unfold Ref.text schemeText authorityText queryText fragmentText
  cases r.scheme <;> cases r.authority <;> cases r.query <;> cases r.fragment <;> simp

theorem cut_fragment (a : Str) (f : Option Str) (h : '#' ∉ a) : cut '#' (a ++ fragmentText f) = (a, f.getD []) := by
  cases f with
  | none => simpa [fragmentText] using cut_not_mem '#' a h
  | some f => exact cut_mem '#' a f h

theorem cut_query (a : Str) (q : Option Str) (h : '?' ∉ a) : cut '?' (a ++ queryText q) = (a, q.getD []) := by
  cases q with
  | none => simpa [queryText] using cut_not_mem '?' a h
  | some q => exact cut_mem '?' a q h

/-- Up to the first colon there is a character that is not one of a scheme, or there is no colon. -/
theorem hasScheme_false (a b : Str) (d : Char) (ha : ':' ∉ a) (hd : d = '/' ∨ d = '?' ∨ d = '#') :
    hasScheme (a ++ d :: b) = false := by
  unfold hasScheme
  have hne : d ≠ ':' := by rcases hd with rfl | rfl | rfl <;> decide
  have hsc : schemeChar d = false := by rcases hd with rfl | rfl | rfl <;> decide
  have hm : d ∈ (cut ':' (a ++ d :: b)).1 := by
    unfold cut
    show d ∈ (a ++ d :: b).takeWhile (· ≠ ':')
    induction a with
    | nil => simp [hne]
    | cons x a ih =>
      simp only [List.mem_cons, not_or] at ha
      have hx : x ≠ ':' := fun e => ha.1 e.symm
      simp only [List.cons_append, List.takeWhile_cons, ne_eq, hx, not_false_eq_true, decide_true, if_true]
      exact List.mem_cons_of_mem _ (ih ha.2)
  have h1 : ((cut ':' (a ++ d :: b)).1 == "http".toList) = false := by
    rw [beq_eq_false_iff_ne]
    intro h
    rw [h] at hm
    rcases hd with rfl | rfl | rfl <;> revert hm <;> decide
  have h2 : (cut ':' (a ++ d :: b)).1.all schemeChar = false := by
    rw [List.all_eq_false]
    exact ⟨d, hm, by rw [hsc]; decide⟩
  simp only [h1, h2, Bool.false_and, Bool.or_self, Bool.and_false]

theorem hasScheme_noColon (a : Str) (ha : ':' ∉ a) : hasScheme a = false := by
  unfold hasScheme
  have : a.contains ':' = false := by
    rw [List.contains_eq_mem, decide_eq_false_iff_not]
    exact ha
  rw [this]
  rfl

theorem after_path (q f : Option Str) : queryText q ++ fragmentText f = [] ∨
    ∃ d b, (d = '/' ∨ d = '?' ∨ d = '#') ∧ queryText q ++ fragmentText f = d :: b := by
  cases q with
  | some q => exact .inr ⟨'?', _, .inr (.inl rfl), rfl⟩
  | none =>
    cases f with
    | some f => exact .inr ⟨'#', _, .inr (.inr rfl), rfl⟩
    | none => exact .inl rfl

theorem path_split (p : Str) : '/' ∉ p ∨ ∃ a b, p = a ++ '/' :: b ∧ '/' ∉ a ∧ p.takeWhile (· ≠ '/') = a := by
  induction p with
  | nil => exact .inl (by simp)
  | cons c p ih =>
    by_cases hc : c = '/'
    · subst hc
      exact .inr ⟨[], p, rfl, by simp, by simp⟩
    · rcases ih with h | ⟨a, b, rfl, h2, h3⟩
      · refine .inl ?_
        simp only [List.mem_cons, not_or]
        exact ⟨fun e => hc e.symm, h⟩
      · refine .inr ⟨c :: a, b, rfl, ?_, ?_⟩
        · simp only [List.mem_cons, not_or]
          exact ⟨fun e => hc e.symm, h2⟩
        · simp only [List.takeWhile_cons, ne_eq, hc, not_false_eq_true, decide_true, if_true]
          exact congrArg _ h3

theorem hasScheme_none (r : Ref) (hr : r.Ok) (hs : r.scheme = none) : hasScheme r.text = false := by
  rw [text_eq, hs]
  show hasScheme (authorityText r.authority ++ _) = false
  cases ha : r.authority with
  | some a => exact hasScheme_false [] _ '/' (by simp) (.inl rfl)
  | none =>
    show hasScheme (r.path ++ _) = false
    have hf := hr.first hs ha
    rcases path_split r.path with h | ⟨a, b, h1, h2, h3⟩
    · have hp : ':' ∉ r.path := by
        rw [(while_all (fun x => decide (x ≠ '/')) r.path (by
          intro x hx
          rw [decide_eq_true_iff]
          rintro rfl
          exact h hx)).1] at hf
        exact hf
      rcases after_path r.query r.fragment with h' | ⟨d, b, hd, h'⟩
      · rw [h', List.append_nil]
        exact hasScheme_noColon _ hp
      · rw [h']
        exact hasScheme_false _ _ d hp hd
    · rw [h3] at hf
      rw [h1, List.append_assoc]
      exact hasScheme_false a _ '/' hf (.inl rfl)

/-- A scheme that `urlsplit` does not take for something else: what is behind it is not only digits. -/
def NotPort (r : Ref) : Prop :=
  r.authority ≠ none ∨ r.path = [] ∨ ∃ c ∈ r.path, c.isDigit = false

theorem scheme_facts (r : Ref) (hr : r.Ok) (s : Str) (hs : r.scheme = some s) :
    s ≠ [] ∧ ':' ∉ s ∧ s.all schemeChar = true := by
  obtain ⟨c, t, rfl, h1, h2⟩ := hr.scheme s hs
  have hall : (c :: t).all schemeChar = true := by
    rw [List.all_eq_true]
    intro x hx
    unfold schemeChar
    rcases List.mem_cons.1 hx with rfl | hx
    · simp [Char.isAlphanum, h1]
    · rcases h2 x hx with h | h | h | h <;> simp [h]
  refine ⟨by simp, ?_, hall⟩
  intro hm
  have := List.all_eq_true.1 hall ':' hm
  revert this
  decide

theorem hasScheme_some (r : Ref) (hr : r.Ok) (s : Str) (hs : r.scheme = some s) (hp : NotPort r) :
    hasScheme r.text = true ∧ cut ':' r.text = (s, authorityText r.authority ++ (r.path ++ (queryText r.query ++
      fragmentText r.fragment))) := by
  obtain ⟨h1, h2, h3⟩ := scheme_facts r hr s hs
  have hc : cut ':' r.text = (s, authorityText r.authority ++ (r.path ++ (queryText r.query ++ fragmentText r.fragment))) := by
    rw [text_eq, hs]
    show cut ':' ((s ++ [':']) ++ _) = _
    rw [List.append_assoc]
    exact cut_mem ':' s _ h2
  refine ⟨?_, hc⟩
  unfold hasScheme
  rw [hc]
  have hm : r.text.contains ':' = true := by
    rw [List.contains_eq_mem, decide_eq_true_iff, text_eq, hs]
    simp [schemeText]
  have hrest : ((authorityText r.authority ++ (r.path ++ (queryText r.query ++ fragmentText r.fragment))) == [] ||
      (authorityText r.authority ++ (r.path ++ (queryText r.query ++ fragmentText r.fragment))).any fun c => !c.isDigit) = true := by
    rw [Bool.or_eq_true, beq_iff_eq, List.any_eq_true]
    rcases hp with h | h | ⟨c, hc, hd⟩
    · cases ha : r.authority with
      | none => exact absurd ha h
      | some a => exact .inr ⟨'/', by simp [authorityText], by decide⟩
    · rw [h, List.nil_append]
      rcases after_path r.query r.fragment with h' | ⟨d, b, hd, h'⟩
      · cases ha : r.authority with
        | none => left; rw [h']; rfl
        | some a => exact .inr ⟨'/', by simp [authorityText], by decide⟩
      · refine .inr ⟨d, by rw [h']; simp, ?_⟩
        rcases hd with rfl | rfl | rfl <;> decide
    · exact .inr ⟨c, by simp [hc], by rw [hd]; rfl⟩
  simp only [hm, h3, hrest, Bool.true_and, Bool.and_true, Bool.or_true, decide_eq_true_eq]
  exact h1

/-- An authority that `urlsplit` does not refuse: brackets in pairs, and ASCII. -/
def AuthorityFine (a : Str) : Prop := ('[' ∈ a ↔ ']' ∈ a) ∧ ∀ c ∈ a, c.toNat < 128

theorem urlsplit_text (e : Env) (r : Ref) (hr : r.Ok) (hp : r.scheme ≠ none → NotPort r)
    (ha : ∀ a, r.authority = some a → AuthorityFine a) (sch : Str) :
    urlsplit e r.text sch = .ok ⟨(r.scheme.map (·.map Char.toLower)).getD sch, r.authority.getD [], r.path, r.query.getD [],
      r.fragment.getD []⟩ := by
  have hsu : (if hasScheme r.text then ((cut ':' r.text).1.map Char.toLower, (cut ':' r.text).2) else (sch, r.text)) =
      ((r.scheme.map (·.map Char.toLower)).getD sch, authorityText r.authority ++ (r.path ++ (queryText r.query ++
        fragmentText r.fragment))) := by
    cases hs : r.scheme with
    | none =>
      rw [hasScheme_none r hr hs]
      rw [text_eq, hs]
      rfl
    | some s =>
      obtain ⟨h1, h2⟩ := hasScheme_some r hr s hs (hp (by rw [hs]; simp))
      rw [h1, h2]
      rfl
  have hpa : '#' ∉ r.path ++ queryText r.query := by
    rw [List.mem_append, not_or]
    refine ⟨fun h => (hr.path _ h).2 rfl, ?_⟩
    cases hq : r.query with
    | none => simp [queryText]
    | some q => simpa [queryText] using hr.query q hq
  have hpq : '?' ∉ r.path := fun h => (hr.path _ h).1 rfl
  have htail : (r.path ++ (queryText r.query ++ fragmentText r.fragment)) = [] ∨
      ∃ d b, endsNetloc d = true ∧ (r.authority ≠ none → r.path ++ (queryText r.query ++ fragmentText r.fragment) = d :: b) ∨
        r.authority = none := by
    by_cases hn : r.authority = none
    · exact .inr ⟨'/', [], .inr hn⟩
    · rcases hr.after hn with h | h
      · rw [h]
        rcases after_path r.query r.fragment with h' | ⟨d, b, hd, h'⟩
        · exact .inl h'
        · refine .inr ⟨d, b, .inl ⟨?_, fun _ => h'⟩⟩
          rcases hd with rfl | rfl | rfl <;> decide
      · cases hpath : r.path with
        | nil => rw [hpath] at h; cases h
        | cons c p =>
          rw [hpath] at h
          simp only [List.head?_cons, Option.some.injEq] at h
          subst h
          exact .inr ⟨'/', _, .inl ⟨by decide, fun _ => rfl⟩⟩
  have hnu : ∀ su2 : Str, su2 = authorityText r.authority ++ (r.path ++ (queryText r.query ++ fragmentText r.fragment)) →
      (if su2.take 2 = ['/', '/'] then
        ((su2.drop 2).takeWhile fun c => !endsNetloc c, (su2.drop 2).dropWhile fun c => !endsNetloc c)
      else ([], su2)) = (r.authority.getD [], r.path ++ (queryText r.query ++ fragmentText r.fragment)) := by
    rintro su2 rfl
    cases hau : r.authority with
    | some a =>
      have hno : ∀ c ∈ a, endsNetloc c = false := by
        intro c hc
        obtain ⟨h1, h2, h3⟩ := hr.authority a hau c hc
        unfold endsNetloc
        simp [h1, h2, h3]
      have hx : ∀ t : Str, (t = [] ∨ ∃ d b, endsNetloc d = true ∧ t = d :: b) →
          ((a ++ t).takeWhile fun c => !endsNetloc c) = a ∧ ((a ++ t).dropWhile fun c => !endsNetloc c) = t := by
        intro t ht
        clear hau
        induction a with
        | nil => rcases ht with rfl | ⟨d, b, hd, rfl⟩ <;> simp [*]
        | cons c a ih =>
          have hc := hno c List.mem_cons_self
          obtain ⟨h1, h2⟩ := ih (fun c hc => hno c (List.mem_cons_of_mem _ hc))
          simp [hc, h1, h2]
      have ht : (r.path ++ (queryText r.query ++ fragmentText r.fragment)) = [] ∨
          ∃ d b, endsNetloc d = true ∧ (r.path ++ (queryText r.query ++ fragmentText r.fragment)) = d :: b := by
        rcases htail with h | ⟨d, b, ⟨h1, h2⟩ | h⟩
        · exact .inl h
        · exact .inr ⟨d, b, h1, h2 (by rw [hau]; simp)⟩
        · rw [hau] at h; cases h
      obtain ⟨h1, h2⟩ := hx _ ht
      show (if (List.take 2 ('/' :: '/' :: (a ++ _)) = ['/', '/']) then _ else _) = _
      rw [if_pos (by rfl)]
      show ((a ++ _).takeWhile _, (a ++ _).dropWhile _) = _
      rw [h1, h2]
      rfl
    | none =>
      show (if (List.take 2 (r.path ++ _) = ['/', '/']) then _ else _) = _
      rw [if_neg]
      · rfl
      · have hal := hr.alone hau
        intro h
        rcases hpath : r.path with _ | ⟨c, _ | ⟨d, p⟩⟩
        · rw [hpath] at h
          rcases after_path r.query r.fragment with h' | ⟨d, b, hd, h'⟩
          · rw [h'] at h; cases h
          · rw [h'] at h
            cases hq : r.query with
            | some q => rw [hq] at h'; injection h' with h'; subst h'; simp at h
            | none =>
              cases hf : r.fragment with
              | some f => rw [hq, hf] at h'; injection h' with h'; subst h'; simp at h
              | none => rw [hq, hf] at h'; cases h'
        · rw [hpath] at h
          cases hq : r.query with
          | some q => rw [hq] at h; simp [queryText] at h
          | none =>
            cases hf : r.fragment with
            | some f => rw [hq, hf] at h; simp [queryText, fragmentText] at h
            | none => rw [hq, hf] at h; simp [queryText, fragmentText] at h
        · rw [hpath] at h hal
          exact hal h
  have hbr : ((r.authority.getD []).contains '[' ≠ (r.authority.getD []).contains ']') = False := by
    rw [eq_iff_iff, iff_false, ne_eq, Decidable.not_not]
    cases hau : r.authority with
    | none => rfl
    | some a =>
      simp only [Option.getD_some, List.contains_eq_mem, decide_eq_decide]
      exact (ha a hau).1
  have hok : netlocOk e (r.authority.getD []) = true := by
    unfold netlocOk
    rw [Bool.or_eq_true]
    left
    rw [List.all_eq_true]
    intro c hc
    cases hau : r.authority with
    | none => rw [hau] at hc; cases hc
    | some a =>
      rw [hau] at hc
      exact decide_eq_true ((ha a hau).2 c hc)
  unfold urlsplit
  simp only [hsu, hnu _ rfl, hbr, if_false, hok, if_true]
  rw [← List.append_assoc, cut_fragment _ _ hpa]
  simp only [cut_query _ _ hpq]

theorem urlparse_text (e : Env) (r : Ref) (hr : r.Ok) (hp : r.scheme ≠ none → NotPort r)
    (ha : ∀ a, r.authority = some a → AuthorityFine a) (hs : ';' ∉ r.path) (sch : Str) :
    urlparse e r.text sch = .ok ⟨⟨(r.scheme.map (·.map Char.toLower)).getD sch, r.authority.getD [], r.path, r.query.getD [],
      r.fragment.getD []⟩, []⟩ := by
  unfold urlparse
  rw [urlsplit_text e r hr hp ha sch]
  simp only
  rw [if_neg (fun h => hs h.2)]

end CBus.Url
