import Verif.Model.Json

/-! # Lemmas about dictionaries -/

namespace CBus
variable {κ α : Type} [DecidableEq κ]

theorem dictGet_nil (k : κ) : dictGet ([] : List (κ × α)) k = none := rfl

theorem dictGet_cons' (k k' : κ) (v : α) (l : List (κ × α)) :
    dictGet ((k, v) :: l) k' = if k = k' then some v else dictGet l k' := by
  unfold dictGet
  by_cases h : k = k' <;> simp [h]

theorem dictGet_isSome (d : List (κ × α)) (k : κ) : (dictGet d k).isSome = d.any (fun p => p.1 = k) := by
  induction d with
  | nil => rfl
  | cons p d ih =>
    obtain ⟨k', v⟩ := p
    rw [dictGet_cons', List.any_cons, ← ih]
    by_cases h : k' = k <;> simp [h]

theorem dictGet_append (d d' : List (κ × α)) (k : κ) :
    dictGet (d ++ d') k = (dictGet d k).or (dictGet d' k) := by
  induction d with
  | nil => simp [dictGet]
  | cons p d ih =>
    obtain ⟨k', v⟩ := p
    rw [List.cons_append, dictGet_cons', dictGet_cons', ih]
    split <;> simp

theorem dictGet_map_set (d : List (κ × α)) (k k' : κ) (v : α) :
    dictGet (d.map fun p => if p.1 = k then (k, v) else p) k'
      = if k = k' then (dictGet d k').map (fun _ => v) else dictGet d k' := by
  induction d with
  | nil => simp [dictGet]
  | cons p d ih =>
    obtain ⟨k₂, v₂⟩ := p
    rw [List.map_cons, dictGet_cons']
    by_cases h : k₂ = k
    · simp only [h, if_true]
      rw [dictGet_cons', ih]
      by_cases h' : k = k' <;> simp [h']
    · simp only [h, if_false]
      rw [dictGet_cons', ih]
      by_cases h' : k = k'
      · subst h'; simp [h]
      · simp [h']

/-- After `d[k] = v`, `d[k]` is `v` and the other keys are as before. -/
theorem dictGet_dictSet (d : List (κ × α)) (k k' : κ) (v : α) :
    dictGet (dictSet d k v) k' = if k = k' then some v else dictGet d k' := by
  unfold dictSet
  by_cases h : d.any (fun p => p.1 = k)
  · rw [if_pos h, dictGet_map_set]
    split
    · rename_i e
      subst e
      rw [← dictGet_isSome] at h
      cases hd : dictGet d k with
      | none => rw [hd] at h; cases h
      | some x => rfl
    · rfl
  · rw [if_neg h, dictGet_append, dictGet_cons', dictGet_nil]
    split
    · rename_i e
      subst e
      have h' : (dictGet d k).isSome = false := by rw [dictGet_isSome]; exact Bool.eq_false_iff.2 h
      cases hd : dictGet d k with
      | none => rfl
      | some x => rw [hd] at h'; cases h'
    · simp

/-- `d[k] = v` for a key that exists does not change the keys. -/
theorem dictSet_keys (d : List (κ × α)) (k : κ) (v : α) (h : k ∈ d.map (·.1)) :
    (dictSet d k v).map (·.1) = d.map (·.1) := by
  unfold dictSet
  have : d.any (fun p => p.1 = k) = true := by
    obtain ⟨p, hp, e⟩ := List.mem_map.1 h
    exact List.any_eq_true.2 ⟨p, hp, by simp [e]⟩
  rw [if_pos this, List.map_map]
  apply List.map_congr_left
  intro p _
  simp only [Function.comp]
  split
  · rename_i e; exact e.symm
  · rfl

/-- The keys of a dictionary stay distinct. -/
theorem dictSet_nodup (d : List (κ × α)) (k : κ) (v : α) (h : (d.map (·.1)).Nodup) :
    ((dictSet d k v).map (·.1)).Nodup := by
  by_cases hk : k ∈ d.map (·.1)
  · rw [dictSet_keys _ _ _ hk]; exact h
  · have : d.any (fun p => p.1 = k) = false := by
      apply Bool.eq_false_iff.2
      intro hc
      obtain ⟨p, hp, e⟩ := List.any_eq_true.1 hc
      exact hk (List.mem_map.2 ⟨p, hp, by simpa using e⟩)
    unfold dictSet
    rw [this]
    simp only [Bool.false_eq_true, if_false, List.map_append, List.map_cons, List.map_nil]
    rw [List.nodup_append]
    refine ⟨h, by simp, ?_⟩
    intro a ha b hb
    simp at hb
    subst hb
    exact fun e => hk (e ▸ ha)

theorem dictGet_mem (d : List (κ × α)) (k : κ) (v : α) (h : dictGet d k = some v) : (k, v) ∈ d := by
  induction d with
  | nil => cases h
  | cons p d ih =>
    obtain ⟨k', v'⟩ := p
    rw [dictGet_cons'] at h
    split at h
    · rename_i e; injection h with h; subst e h; exact List.mem_cons_self
    · exact List.mem_cons_of_mem _ (ih h)

theorem dictGet_of_mem (d : List (κ × α)) (k : κ) (v : α) (hn : (d.map (·.1)).Nodup) (h : (k, v) ∈ d) :
    dictGet d k = some v := by
  induction d with
  | nil => cases h
  | cons p d ih =>
    obtain ⟨k', v'⟩ := p
    rw [dictGet_cons']
    rw [List.map_cons, List.nodup_cons] at hn
    rcases List.mem_cons.1 h with e | h
    · injection e with e1 e2; subst e1 e2; simp
    · rw [if_neg, ih hn.2 h]
      intro e
      exact hn.1 (List.mem_map.2 ⟨(k, v), h, e.symm⟩)

end CBus
