import Verif.Spec.Layout
import Verif.Props.DumpText

/-! # C157: the layout of a dump -/

namespace CBus.Props
open CBus CBus.Json CBus.Spec.Json CBus.Cbz CBus.Spec.Cbz
open CBus.Spec.Dump (IsDump)

theorem newline_onLine (n k : Nat) (t : Str) : newline n k ++ t = onLine n k t := by
  simp [newline, onLine]

theorem itemsIn_join (env : JEnv) (n k : Nat) : ∀ l : List JVal, l ≠ [] →
    newline n k ++ itemsIn env n k l = List.intercalate [','] (l.map fun v => onLine n k (dumpsIn env n k v))
  | [], h => absurd rfl h
  | [v], _ => by
    rw [itemsIn, newline_onLine]
    simp [List.intercalate]
  | v :: w :: l, _ => by
    rw [itemsIn]
    · have ih := itemsIn_join env n k (w :: l) (by simp)
      rw [List.append_assoc, List.append_assoc, ih, ← List.append_assoc, newline_onLine]
      simp [List.intercalate]
    · intro h; cases h

theorem membersIn_join (env : JEnv) (n k : Nat) : ∀ l : List (Str × JVal), l ≠ [] →
    newline n k ++ membersIn env n k l = List.intercalate [',']
      (l.map fun m => onLine n k ('"' :: (m.1.flatMap dumpChar ++ ("\": ".toList ++ dumpsIn env n k m.2))))
  | [], h => absurd rfl h
  | [(s, v)], _ => by
    rw [membersIn, newline_onLine]
    simp [List.intercalate, dumpString]
  | (s, v) :: w :: l, _ => by
    rw [membersIn]
    · have ih := membersIn_join env n k (w :: l) (by simp)
      rw [List.append_assoc, List.append_assoc, ih, ← List.append_assoc, newline_onLine]
      simp [List.intercalate, dumpString]
    · intro h; cases h

theorem no_newline {env : JEnv} {v : JVal} (h : Exact env v) : '\n' ∉ dumps env v := by
  intro hm
  have := dumps_printable env h _ hm
  revert this
  decide

theorem dumpsIn_laid (env : JEnv) (n : Nat) {v : JVal} (h : Exact env v) : ∀ k, Laid env n k (dumpsIn env n k v) v := by
  have same : ∀ {v : JVal}, Exact env v → ¬ Nested v → ∀ k, dumpsIn env n k v = dumps env v →
      Laid env n k (dumpsIn env n k v) v := fun hv hn k e => by rw [e]; exact .plain _ _ _ hn (dumps_part env hv) (no_newline hv)
  induction h with
  | null => exact fun k => same .null id k (by rw [dumpsIn, dumps])
  | bool b => exact fun k => same (.bool b) id k (by rw [dumpsIn, dumps])
  | int i => exact fun k => same (.int i) id k (by rw [dumpsIn, dumps])
  | float q h => exact fun k => same (.float q h) id k (by rw [dumpsIn, dumps])
  | nan => exact fun k => same .nan id k (by rw [dumpsIn, dumps])
  | inf b => exact fun k => same (.inf b) id k (by rw [dumpsIn, dumps])
  | str s => exact fun k => same (.str s) id k (by rw [dumpsIn, dumps])
  | arr l h ih =>
    intro k
    rw [dumpsIn]
    by_cases hl : l = []
    · subst hl
      exact .plain _ "[]".toList _ id (.emptyArr [] blank_nil) (by decide)
    · rw [if_neg hl]
      have := Laid.arr (env := env) (n := n) k (l.map (dumpsIn env n (k + 1))) l hl (by simp)
        (fun i h1 h2 => by simpa using ih l[i] (List.getElem_mem h2) (k + 1))
      rw [List.map_map] at this
      rw [List.cons_append, itemsIn_join env n (k + 1) l hl, List.cons_append, List.cons_append, List.append_assoc, newline_onLine]
      exact this
  | obj l hn h ih =>
    intro k
    rw [dumpsIn]
    by_cases hl : l = []
    · subst hl
      exact .plain _ "{}".toList _ id (.emptyObj [] blank_nil) (by decide)
    · rw [if_neg hl]
      have := Laid.obj (env := env) (n := n) k (l.map fun m => (m.1.flatMap dumpChar, dumpsIn env n (k + 1) m.2)) l hl (by simp)
        (fun i h1 h2 => by simpa using dumpString_text env l[i].1)
        (fun i h1 h2 => by simpa using ih l[i] (List.getElem_mem h2) (k + 1))
      rw [List.map_map] at this
      rw [List.cons_append, membersIn_join env n (k + 1) l hl, List.cons_append, List.cons_append, List.append_assoc, newline_onLine]
      exact this

/-- C157: with `-p` and a positive number the output has one item per line, with that many spaces for every level. -/
theorem C157_layout (env : Env) (jenv : JEnv) (n : Nat) (hn : 0 < n) (input : File) (out : DumpOut)
    (h : dumpMain env (some (n : Int)) input = (.done, out)) :
    ∃ nets j text, IsDump env nets j ∧ dumpText jenv out = some text ∧ Laid jenv n 0 text j := by
  obtain ⟨nets, j, indent, h1, rfl, -⟩ := dumpMain_done env (some (n : Int)) input out h
  have hi : indent = some (n : Int) := by
    unfold dumpMain at h
    simp only at h
    rw [if_neg (by omega), if_neg (by omega)] at h
    split at h
    · cases h
    · cases h
    · split at h
      · cases h
      · cases h; rfl
  subst hi
  exact ⟨nets, j, _, h1, rfl, dumpsIn_laid jenv n (exact_dump env jenv nets j h1) 0⟩

/-- Without it, or with 0, everything is on one line. -/
theorem C157_compact (env : Env) (jenv : JEnv) (pretty : Option Int) (hp : pretty = none ∨ pretty = some 0) (input : File)
    (out : DumpOut) (h : dumpMain env pretty input = (.done, out)) :
    ∃ nets j text, IsDump env nets j ∧ dumpText jenv out = some text ∧ JsonText jenv text j ∧ '\n' ∉ text := by
  obtain ⟨nets, j, indent, h1, rfl, -⟩ := dumpMain_done env pretty input out h
  have hi : indent = none := by
    unfold dumpMain at h
    rcases hp with rfl | rfl
    · simp only at h
      split at h
      · cases h
      · cases h
      · split at h
        · cases h
        · cases h; rfl
    · simp only [if_true] at h
      split at h
      · cases h
      · cases h
      · split at h
        · cases h
        · cases h; rfl
  subst hi
  have hx := exact_dump env jenv nets j h1
  exact ⟨nets, j, _, h1, rfl, (C100_dumps jenv j hx).1, no_newline hx⟩

/-- An object within an object, with two spaces for every level. -/
example (env : JEnv) : String.ofList (dumpsIn env 2 0 (.obj [("a".toList, .obj [("b".toList, .arr []), ("c".toList, .null)])])) =
    "{\n  \"a\": {\n    \"b\": [],\n    \"c\": null\n  }\n}" := by rfl

end CBus.Props
