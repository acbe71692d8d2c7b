import Verif.Model.Url
import Verif.Spec.Uri
import Verif.Props.Dump

/-! # Lemmas about the resolution of references -/

namespace CBus.Url
open CBus CBus.Spec

/-- A path of segments, each after a slash. -/
def flat (l : List Str) : Str := l.flatMap fun s => '/' :: s

@[simp] theorem flat_nil : flat [] = [] := rfl
@[simp] theorem flat_cons (s : Str) (l : List Str) : flat (s :: l) = '/' :: s ++ flat l := rfl
theorem flat_append (a b : List Str) : flat (a ++ b) = flat a ++ flat b := by unfold flat; simp

/-- What the segments come to. -/
def stackGo : List Str → List Str → List Str
  | st, [] => st
  | st, s :: rest =>
    let st' := if s = "..".toList then st.dropLast else if s = ".".toList then st else st ++ [s]
    if rest = [] ∧ (s = "..".toList ∨ s = ".".toList) then st' ++ [[]] else stackGo st' rest

def NoSlash (l : List Str) : Prop := ∀ s ∈ l, '/' ∉ s

theorem flat_head (l : List Str) : flat l = [] ∨ ∃ r, flat l = '/' :: r := by
  cases l with
  | nil => exact .inl rfl
  | cons s l => exact .inr ⟨_, rfl⟩

theorem dropWhile_noSlash {s : Str} (h : '/' ∉ s) (t : Str) (ht : t = [] ∨ ∃ r, t = '/' :: r) :
    (s ++ t).dropWhile (· ≠ '/') = t ∧ (s ++ t).takeWhile (· ≠ '/') = s := by
  induction s with
  | nil =>
    rcases ht with rfl | ⟨r, rfl⟩
    · simp
    · simp
  | cons c s ih =>
    simp only [List.mem_cons, not_or] at h
    have hc : c ≠ '/' := fun e => h.1 e.symm
    obtain ⟨h1, h2⟩ := ih h.2
    constructor
    · simpa [hc] using h1
    · simpa [hc] using h2

theorem dotsGo_step (n : Nat) (seg rest out : Str) (hs : '/' ∉ seg) (hr : rest = [] ∨ ∃ r, rest = '/' :: r) :
    dotsGo (n + 1) ('/' :: seg ++ rest) out =
      if seg = "..".toList then dotsGo n (if rest = [] then ['/'] else rest) (withoutLast out)
      else if seg = ".".toList then dotsGo n (if rest = [] then ['/'] else rest) out
      else dotsGo n rest (out ++ '/' :: seg) := by
  by_cases h1 : seg = "..".toList
  · subst h1
    rcases hr with rfl | ⟨r, rfl⟩ <;> rfl
  by_cases h2 : seg = ".".toList
  · subst h2
    rcases hr with rfl | ⟨r, rfl⟩ <;> rfl
  rw [if_neg h1, if_neg h2]
  obtain ⟨e1, e2⟩ := dropWhile_noSlash hs rest hr
  rw [List.cons_append]
  have key : ∀ x : Str, x = seg ++ rest → dotsGo (n + 1) ('/' :: x) out =
      dotsGo n (x.dropWhile (· ≠ '/')) (out ++ '/' :: x.takeWhile (· ≠ '/')) := by
    intro x hx
    have no1 : ∀ r, x ≠ '.' :: '/' :: r := by
      intro r h
      rw [h] at hx
      rcases seg with _ | ⟨a, _ | ⟨b, s⟩⟩
      · rcases hr with rfl | ⟨r', rfl⟩ <;> cases hx
      · simp only [List.cons_append, List.nil_append, List.cons.injEq] at hx
        exact h2 (by rw [← hx.1]; rfl)
      · simp only [List.cons_append, List.cons.injEq] at hx
        exact hs (by rw [← hx.2.1]; simp)
    have no2 : x ≠ ['.'] := by
      intro h
      rw [h] at hx
      rcases seg with _ | ⟨a, s⟩
      · rcases hr with rfl | ⟨r', rfl⟩ <;> cases hx
      · simp only [List.cons_append, List.cons.injEq, List.nil_eq_append_iff] at hx
        exact h2 (by rw [← hx.1, hx.2.1]; rfl)
    have no3 : ∀ r, x ≠ '.' :: '.' :: '/' :: r := by
      intro r h
      rw [h] at hx
      rcases seg with _ | ⟨a, _ | ⟨b, _ | ⟨c, s⟩⟩⟩
      · rcases hr with rfl | ⟨r', rfl⟩ <;> cases hx
      · rcases hr with rfl | ⟨r', rfl⟩ <;> simp at hx
      · simp only [List.cons_append, List.nil_append, List.cons.injEq] at hx
        exact h1 (by rw [← hx.1, ← hx.2.1]; rfl)
      · simp only [List.cons_append, List.cons.injEq] at hx
        exact hs (by rw [← hx.2.2.1]; simp)
    have no4 : x ≠ ['.', '.'] := by
      intro h
      rw [h] at hx
      rcases seg with _ | ⟨a, _ | ⟨b, s⟩⟩
      · rcases hr with rfl | ⟨r', rfl⟩ <;> cases hx
      · rcases hr with rfl | ⟨r', rfl⟩ <;> simp at hx
      · simp only [List.cons_append, List.cons.injEq, List.nil_eq_append_iff] at hx
        exact h1 (by rw [← hx.1, ← hx.2.1, hx.2.2.1]; rfl)
    rw [dotsGo]
    · exact fun r h => by cases h
    · exact fun r h => by cases h
    · exact fun r _ h => no1 r h
    · exact fun _ h => no2 h
    · exact fun r _ h => no3 r h
    · exact fun _ h => no4 h
    · exact fun h => by cases h
    · exact fun h => by cases h
  rw [key _ rfl, e1, e2]

theorem withoutLast_flat (st : List Str) (h : NoSlash st) : withoutLast (flat st) = flat st.dropLast := by
  rcases List.eq_nil_or_concat st with rfl | ⟨l, s, rfl⟩
  · rfl
  · rw [List.concat_eq_append, List.dropLast_concat, flat_append]
    unfold withoutLast
    have hs : '/' ∉ s.reverse := by
      rw [List.mem_reverse]
      exact h s (by simp)
    rw [List.reverse_append]
    show (((('/' :: s ++ []).reverse ++ (flat l).reverse).dropWhile _).drop 1).reverse = _
    rw [List.append_nil, List.reverse_cons, List.append_assoc, List.singleton_append]
    rw [(dropWhile_noSlash hs _ (.inr ⟨_, rfl⟩)).1]
    simp

theorem noSlash_dropLast {l : List Str} (h : NoSlash l) : NoSlash l.dropLast :=
  fun s hs => h s (List.dropLast_subset _ hs)

theorem stackGo_single_nil (st : List Str) : stackGo st [[]] = st ++ [[]] := by
  unfold stackGo
  simp [stackGo]

theorem dotsGo_flat : ∀ (segs st : List Str) (n : Nat), NoSlash segs → NoSlash st → (flat segs).length ≤ n →
    dotsGo n (flat segs) (flat st) = flat (stackGo st segs) := by
  intro segs
  induction segs with
  | nil =>
    intro st n _ _ _
    cases n <;> simp [dotsGo, stackGo]
  | cons s rest ih =>
    intro st n hs ht hn
    have hsl : '/' ∉ s := hs s (by simp)
    have hrest : NoSlash rest := fun x hx => hs x (List.mem_cons_of_mem _ hx)
    have hlen : (flat (s :: rest)).length = 1 + s.length + (flat rest).length := by simp; omega
    cases n with
    | zero => omega
    | succ n =>
      rw [flat_cons, dotsGo_step n s (flat rest) (flat st) hsl (flat_head rest)]
      have hf : flat rest = [] ↔ rest = [] := by
        cases rest <;> simp
      have one : ∀ (out : List Str), NoSlash out → 1 ≤ n → dotsGo n ['/'] (flat out) = flat (out ++ [[]]) := by
        intro out _ hn1
        obtain ⟨m, rfl⟩ : ∃ m, n = m + 1 := ⟨n - 1, by omega⟩
        have := dotsGo_step m [] [] (flat out) (by simp) (.inl rfl)
        simp only [List.append_nil] at this
        rw [this, if_neg (by decide), if_neg (by decide), flat_append]
        cases m <;> rfl
      by_cases h1 : s = "..".toList
      · rw [if_pos h1, withoutLast_flat _ ht]
        have hl : s.length = 2 := by rw [h1]; rfl
        unfold stackGo
        simp only [if_pos h1]
        by_cases hr : rest = []
        · rw [if_pos (hf.2 hr), if_pos ⟨hr, .inl h1⟩]
          exact one _ (noSlash_dropLast ht) (by omega)
        · rw [if_neg (fun h => hr (hf.1 h)), if_neg (fun h => hr h.1)]
          exact ih _ _ hrest (noSlash_dropLast ht) (by omega)
      · by_cases h2 : s = ".".toList
        · rw [if_neg h1, if_pos h2]
          have hl : s.length = 1 := by rw [h2]; rfl
          unfold stackGo
          simp only [if_neg h1, if_pos h2]
          by_cases hr : rest = []
          · rw [if_pos (hf.2 hr), if_pos ⟨hr, .inr h2⟩]
            exact one _ ht (by omega)
          · rw [if_neg (fun h => hr (hf.1 h)), if_neg (fun h => hr h.1)]
            exact ih _ _ hrest ht (by omega)
        · rw [if_neg h1, if_neg h2]
          unfold stackGo
          simp only [if_neg h1, if_neg h2]
          rw [if_neg (fun h => h.2.elim h1 h2)]
          have : flat st ++ '/' :: s = flat (st ++ [s]) := by rw [flat_append]; simp
          rw [this]
          refine ih _ _ hrest ?_ (by omega)
          intro x hx
          rcases List.mem_append.1 hx with hx | hx
          · exact ht x hx
          · rw [List.mem_singleton.1 hx]; exact hsl

theorem removeDots_flat (segs : List Str) (h : NoSlash segs) : removeDots (flat segs) = flat (stackGo [] segs) :=
  dotsGo_flat segs [] _ h (fun _ h => by cases h) (Nat.le_refl _)

/-! ## The same in `urljoin` -/

/-- The end of the list that `urljoin` makes. -/
def withEnd (segs resolved : List Str) : List Str :=
  if segs.getLast? = some ".".toList ∨ segs.getLast? = some "..".toList then resolved ++ [[]] else resolved

/-- Either the first element stands for the first slash, or it is gone. -/
theorem resolveGo_stack : ∀ (segs st : List Str),
    (withEnd segs (resolveGo ([] :: st) segs) = [] :: stackGo st segs ∨ withEnd segs (resolveGo ([] :: st) segs) = stackGo st segs) ∧
    withEnd segs (resolveGo st segs) = stackGo st segs := by
  intro segs
  induction segs with
  | nil => intro st; exact ⟨.inl rfl, rfl⟩
  | cons s rest ih =>
    intro st
    by_cases hr : rest = []
    · subst hr
      by_cases h1 : s = "..".toList
      · subst h1
        cases st with
        | nil => exact ⟨.inr rfl, rfl⟩
        | cons a st => exact ⟨.inl rfl, rfl⟩
      · by_cases h2 : s = ".".toList
        · subst h2
          exact ⟨.inl rfl, rfl⟩
        · have e : ∀ l : List Str, withEnd [s] (resolveGo l [s]) = l ++ [s] := by
            intro l
            unfold withEnd resolveGo
            rw [if_neg h1, if_neg h2, if_neg]
            · rfl
            · simp only [List.getLast?_singleton, Option.some.injEq]
              rintro (h | h)
              · exact h2 h
              · exact h1 h
          have e' : stackGo st [s] = st ++ [s] := by
            unfold stackGo
            simp only [if_neg h1, if_neg h2]
            rw [if_neg (fun h => h.2.elim h1 h2)]
            rfl
          rw [e, e, e']
          exact ⟨.inl rfl, rfl⟩
    · have hw : ∀ l, withEnd (s :: rest) l = withEnd rest l := by
        intro l
        unfold withEnd
        rw [List.getLast?_cons]
        cases hl : rest.getLast? with
        | none => exact absurd (List.getLast?_eq_none_iff.1 hl) hr
        | some x => rfl
      have hn : ¬ (rest = [] ∧ (s = "..".toList ∨ s = ".".toList)) := fun h => hr h.1
      rw [hw, hw]
      unfold resolveGo stackGo
      simp only [if_neg hn]
      by_cases h1 : s = "..".toList
      · simp only [if_pos h1]
        cases st with
        | nil => exact ⟨.inr (ih []).2, (ih []).2⟩
        | cons a st => exact ⟨(ih _).1, (ih _).2⟩
      · simp only [if_neg h1]
        by_cases h2 : s = ".".toList
        · simp only [if_pos h2]
          exact ih st
        · simp only [if_neg h2]
          exact ih _

/-- All but the last segment have characters. -/
def Full (l : List Str) : Prop := ∀ s ∈ l.dropLast, s ≠ []

theorem stackGo_ne_nil : ∀ (segs st : List Str), segs ≠ [] → stackGo st segs ≠ [] := by
  intro segs
  induction segs with
  | nil => intro _ h; exact absurd rfl h
  | cons s rest ih =>
    intro st _
    unfold stackGo
    simp only
    split
    · simp
    · rename_i h
      by_cases hr : rest = []
      · subst hr
        simp only [true_and, not_or] at h
        rw [if_neg h.1, if_neg h.2]
        simp [stackGo]
      · exact ih _ hr

theorem stackGo_full : ∀ (segs st : List Str), Full segs → (∀ s ∈ st, s ≠ []) → Full (stackGo st segs) := by
  intro segs
  induction segs with
  | nil =>
    intro st _ h s hs
    exact h s (List.dropLast_subset _ hs)
  | cons s rest ih =>
    intro st hf h
    unfold stackGo
    simp only
    have hst : ∀ x ∈ (if s = "..".toList then st.dropLast else if s = ".".toList then st else st ++ [s]), x ≠ [] ∨ rest = [] ∧ x = s := by
      intro x hx
      split at hx
      · exact .inl (h x (List.dropLast_subset _ hx))
      · split at hx
        · exact .inl (h x hx)
        · rcases List.mem_append.1 hx with hx | hx
          · exact .inl (h x hx)
          · rw [List.mem_singleton] at hx
            subst hx
            by_cases hr : rest = []
            · exact .inr ⟨hr, rfl⟩
            · refine .inl (hf x ?_)
              rw [List.dropLast_cons_of_ne_nil hr]
              exact List.mem_cons_self
    split
    · rename_i hd
      intro x hx
      rw [List.dropLast_concat] at hx
      rcases hst x hx with hx | ⟨-, rfl⟩
      · exact hx
      · rcases hd.2 with h | h <;> rw [h] <;> decide
    · rename_i hd
      by_cases hr : rest = []
      · subst hr
        simp only [true_and, not_or] at hd
        rw [if_neg hd.1, if_neg hd.2]
        intro x hx
        unfold stackGo at hx
        rw [List.dropLast_concat] at hx
        exact h x hx
      · refine ih _ ?_ ?_
        · intro x hx
          refine hf x ?_
          rw [List.dropLast_cons_of_ne_nil hr]
          exact List.mem_cons_of_mem _ hx
        · intro x hx
          rcases hst x hx with hx | ⟨h', -⟩
          · exact hx
          · exact absurd h' hr

theorem stackGo_mem : ∀ (segs st : List Str) (x : Str), x ∈ stackGo st segs → x = [] ∨ x ∈ st ∨ x ∈ segs := by
  intro segs
  induction segs with
  | nil => intro st x h; exact .inr (.inl h)
  | cons s rest ih =>
    intro st x h
    have hst : x ∈ (if s = "..".toList then st.dropLast else if s = ".".toList then st else st ++ [s]) → x ∈ st ∨ x = s := by
      intro h
      split at h
      · exact .inl (List.dropLast_subset _ h)
      · split at h
        · exact .inl h
        · rcases List.mem_append.1 h with h | h
          · exact .inl h
          · exact .inr (List.mem_singleton.1 h)
    unfold stackGo at h
    simp only at h
    split at h
    · rcases List.mem_append.1 h with h | h
      · rcases hst h with h | rfl
        · exact .inr (.inl h)
        · exact .inr (.inr List.mem_cons_self)
      · exact .inl (List.mem_singleton.1 h)
    · rcases ih _ _ h with h | h | h
      · exact .inl h
      · rcases hst h with h | rfl
        · exact .inr (.inl h)
        · exact .inr (.inr List.mem_cons_self)
      · exact .inr (.inr (List.mem_cons_of_mem _ h))

theorem joinSlash_flat (l : List Str) (h : l ≠ []) : '/' :: joinSlash l = flat l := by
  induction l with
  | nil => exact absurd rfl h
  | cons s l ih =>
    cases l with
    | nil => simp [joinSlash]
    | cons t l =>
      have := ih (by simp)
      rw [show joinSlash (s :: t :: l) = s ++ '/' :: joinSlash (t :: l) from rfl, this]
      rfl

theorem joinSlash_nil_cons (l : List Str) (h : l ≠ []) : joinSlash ([] :: l) = flat l := by
  cases l with
  | nil => exact absurd rfl h
  | cons s l =>
    rw [show joinSlash ([] :: s :: l) = '/' :: joinSlash (s :: l) from rfl, joinSlash_flat _ (by simp)]

/-- A path with a slash in front. -/
def withSlash (p : Str) : Str := if p ≠ [] ∧ p.head? ≠ some '/' then '/' :: p else p

theorem resolved_path (segs : List Str) (hne : segs ≠ []) (hs : NoSlash segs) (hf : Full segs) (segments : List Str)
    (he : segments = [] :: segs) :
    let resolved := resolveGo [] segments
    let resolved := if segments.getLast? = some ".".toList ∨ segments.getLast? = some "..".toList then resolved ++ [[]] else resolved
    withSlash (if joinSlash resolved = [] then ['/'] else joinSlash resolved) = removeDots (flat segs) := by
  subst he
  rw [removeDots_flat segs hs]
  have hw : ∀ l, withEnd ([] :: segs) l = withEnd segs l := by
    intro l
    unfold withEnd
    rw [List.getLast?_cons]
    cases hl : segs.getLast? with
    | none => exact absurd (List.getLast?_eq_none_iff.1 hl) hne
    | some x => rfl
  have hr : resolveGo [] ([] :: segs) = resolveGo [[]] segs := rfl
  show withSlash (if joinSlash (withEnd ([] :: segs) (resolveGo [] ([] :: segs))) = [] then ['/'] else
    joinSlash (withEnd ([] :: segs) (resolveGo [] ([] :: segs)))) = _
  rw [hw, hr]
  have hn := stackGo_ne_nil segs [] hne
  have hfull := stackGo_full segs [] hf (by simp)
  rcases (resolveGo_stack segs []).1 with h | h
  · rw [h, joinSlash_nil_cons _ hn]
    rcases flat_head (stackGo [] segs) with h' | ⟨r, h'⟩
    · rw [h']
      cases hst : stackGo [] segs with
      | nil => exact absurd hst hn
      | cons => rw [hst] at h'; cases h'
    · rw [h', if_neg (by simp)]
      simp [withSlash]
  · rw [h]
    have hj := joinSlash_flat _ hn
    have hns : NoSlash (stackGo [] segs) := by
      intro x hx
      rcases stackGo_mem segs [] x hx with rfl | h | h
      · simp
      · cases h
      · exact hs x h
    generalize stackGo [] segs = st at hj hn hfull hns
    rw [← hj]
    split
    · rename_i h0
      rw [h0]
      simp [withSlash]
    · rename_i h0
      unfold withSlash
      rw [if_pos]
      refine ⟨h0, ?_⟩
      intro hh
      cases st with
      | nil => exact absurd rfl hn
      | cons s l =>
        cases l with
        | nil =>
          rw [show joinSlash [s] = s from rfl] at hh
          exact hns s (by simp) (List.mem_of_mem_head? hh)
        | cons t l =>
          have : s ≠ [] := hfull s (by simp)
          rw [show joinSlash (s :: t :: l) = s ++ '/' :: joinSlash (t :: l) from rfl, List.head?_append] at hh
          cases s with
          | nil => exact this rfl
          | cons c s =>
            simp only [List.head?_cons, Option.some_or, Option.some.injEq] at hh
            exact hns (c :: s) (by simp) (by rw [hh]; simp)

theorem splitOn_cons_sep (sep : Char) (r : Str) : splitOn sep (sep :: r) = [] :: splitOn sep r := by
  rw [splitOn, if_pos rfl]

theorem splitOn_cons_other (sep c : Char) (r : Str) (h : c ≠ sep) :
    ∃ w ws, splitOn sep r = w :: ws ∧ splitOn sep (c :: r) = (c :: w) :: ws := by
  rw [splitOn, if_neg h]
  cases hr : splitOn sep r with
  | nil => exact absurd hr (Props.splitOn_ne_nil sep r)
  | cons w ws => exact ⟨w, ws, rfl, rfl⟩

theorem flat_splitOn (p : Str) : flat (splitOn '/' p) = '/' :: p := by
  induction p with
  | nil => rfl
  | cons c r ih =>
    by_cases h : c = '/'
    · subst h
      rw [splitOn_cons_sep, flat_cons, ih]
      rfl
    · obtain ⟨w, ws, h1, h2⟩ := splitOn_cons_other '/' c r h
      rw [h1] at ih
      rw [h2]
      simp only [flat_cons, List.cons_append, List.cons.injEq, true_and] at ih ⊢
      exact ih

theorem noSlash_splitOn (p : Str) : NoSlash (splitOn '/' p) := by
  induction p with
  | nil => simp [NoSlash, splitOn]
  | cons c r ih =>
    by_cases h : c = '/'
    · subst h
      rw [splitOn_cons_sep]
      intro s hs
      rcases List.mem_cons.1 hs with rfl | hs
      · simp
      · exact ih s hs
    · obtain ⟨w, ws, h1, h2⟩ := splitOn_cons_other '/' c r h
      rw [h1] at ih
      rw [h2]
      intro s hs
      rcases List.mem_cons.1 hs with rfl | hs
      · simp only [List.mem_cons, not_or]
        exact ⟨fun e => h e.symm, ih w (by simp)⟩
      · exact ih s (List.mem_cons_of_mem _ hs)

/-- There are no two slashes in a row. -/
def NoDouble (p : Str) : Prop := ¬ ['/', '/'] <:+: p

theorem NoDouble.tail {c : Char} {p : Str} (h : NoDouble (c :: p)) : NoDouble p :=
  fun h' => h (h'.trans (List.suffix_cons c p).isInfix)

theorem splitOn_full : ∀ p : Str, NoDouble p → Full (splitOn '/' p).tail ∧
    (p.head? ≠ some '/' → Full (splitOn '/' p) ) := by
  intro p
  induction p with
  | nil => intro _; exact ⟨by simp [Full, splitOn], fun _ => by simp [Full, splitOn]⟩
  | cons c r ih =>
    intro h
    have hr := ih h.tail
    by_cases hc : c = '/'
    · subst hc
      rw [splitOn_cons_sep]
      refine ⟨hr.2 ?_, fun h => absurd rfl h⟩
      intro hh
      cases r with
      | nil => cases hh
      | cons d r =>
        simp only [List.head?_cons, Option.some.injEq] at hh
        subst hh
        exact h ⟨[], r, rfl⟩
    · obtain ⟨w, ws, h1, h2⟩ := splitOn_cons_other '/' c r hc
      rw [h1] at hr
      rw [h2]
      refine ⟨hr.1, fun _ => ?_⟩
      intro s hs
      cases ws with
      | nil => cases hs
      | cons x ws =>
        rw [List.dropLast_cons_of_ne_nil (by simp)] at hs
        rcases List.mem_cons.1 hs with rfl | hs
        · simp
        · exact hr.1 s hs

end CBus.Url
