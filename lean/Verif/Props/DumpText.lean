import Verif.Model.DumpText
import Verif.Props.Graph
import Verif.Props.JsonText

/-! # C146: what dump_labels writes can be read by graph -/

namespace CBus.Props
open CBus CBus.Json CBus.Spec.Json CBus.Cbz CBus.Spec.Cbz
open CBus.Spec.Dump (NetFile projectXml projectJson Distinct IsDump jStr jInt)

theorem blank_newline (indent level : Nat) : Blank (newline indent level) := by
  intro c hc
  rcases List.mem_cons.1 hc with rfl | hc
  · exact .inr (.inr (.inl rfl))
  · exact .inl (List.eq_of_mem_replicate hc)

/-- A Part with white space behind it is what items and members end with. -/
theorem items_blank {env : JEnv} {t : Str} {l : List JVal} (w : Str) (hw : Blank w) (h : Part env t (.items l)) :
    Part env (t ++ w) (.items l) := by
  generalize hm : Meaning.items l = m at h
  induction h generalizing l with
  | item t w' v h hw' =>
    cases hm
    rw [List.append_assoc]
    refine .item t (w' ++ w) v h ?_
    intro c hc
    rcases List.mem_append.1 hc with hc | hc
    · exact hw' c hc
    · exact hw c hc
  | items t w1 w2 t' v l h hw1 hw2 h' _ ih =>
    cases hm
    have := Part.items t w1 w2 (t' ++ w) v _ h hw1 hw2 (ih rfl)
    simpa using this
  | _ => cases hm

theorem members_blank {env : JEnv} {t : Str} {l : List (Str × JVal)} (w : Str) (hw : Blank w) (h : Part env t (.members l)) :
    Part env (t ++ w) (.members l) := by
  generalize hm : Meaning.members l = m at h
  induction h generalizing l with
  | member k n w1 w2 t w3 v hk hw1 hw2 h hw3 =>
    cases hm
    have := Part.member k n w1 w2 t (w3 ++ w) v hk hw1 hw2 h (by
      intro c hc
      rcases List.mem_append.1 hc with hc | hc
      · exact hw3 c hc
      · exact hw c hc)
    simpa using this
  | members k n w1 w2 t w3 w4 t' v l hk hw1 hw2 h hw3 hw4 h' _ ih =>
    cases hm
    have := Part.members k n w1 w2 t w3 w4 (t' ++ w) v _ hk hw1 hw2 h hw3 hw4 (ih rfl)
    simpa using this
  | _ => cases hm

theorem itemsIn_part (env : JEnv) (indent level : Nat) : ∀ (l : List JVal), l ≠ [] →
    (∀ v ∈ l, Part env (dumpsIn env indent level v) (.value v)) → Part env (itemsIn env indent level l) (.items l)
  | [], h, _ => absurd rfl h
  | [v], _, h => by
    rw [itemsIn]
    have := Part.item _ [] v (h v (by simp)) blank_nil
    simpa using this
  | v :: w :: l, _, h => by
    rw [itemsIn]
    · have := Part.items _ [] (newline indent level) _ v (w :: l) (h v (by simp)) blank_nil (blank_newline indent level)
        (itemsIn_part env indent level (w :: l) (by simp) fun x hx => h x (List.mem_cons_of_mem _ hx))
      simpa using this
    · intro h; cases h

theorem membersIn_part (env : JEnv) (indent level : Nat) : ∀ (l : List (Str × JVal)), l ≠ [] →
    (∀ m ∈ l, Part env (dumpsIn env indent level m.2) (.value m.2)) → Part env (membersIn env indent level l) (.members l)
  | [], h, _ => absurd rfl h
  | [(k, v)], _, h => by
    rw [membersIn]
    have := Part.member _ k [] [' '] _ [] v (dumpString_text env k) blank_nil blank_space (h (k, v) (by simp)) blank_nil
    simpa [dumpString] using this
  | (k, v) :: w :: l, _, h => by
    rw [membersIn]
    · have := Part.members _ k [] [' '] _ [] (newline indent level) _ v (w :: l) (dumpString_text env k) blank_nil blank_space
        (h (k, v) (by simp)) blank_nil (blank_newline indent level)
        (membersIn_part env indent level (w :: l) (by simp) fun x hx => h x (List.mem_cons_of_mem _ hx))
      simpa [dumpString] using this
    · intro h; cases h

theorem dumpsIn_part (env : JEnv) (indent : Nat) {v : JVal} (h : Exact env v) :
    ∀ level, Part env (dumpsIn env indent level v) (.value v) := by
  have same : ∀ {v : JVal}, Exact env v → ∀ level, dumpsIn env indent level v = dumps env v →
      Part env (dumpsIn env indent level v) (.value v) := fun hv level e => by rw [e]; exact dumps_part env hv
  induction h with
  | null => exact fun level => same .null level (by rw [dumpsIn, dumps])
  | bool b => exact fun level => same (.bool b) level (by rw [dumpsIn, dumps])
  | int i => exact fun level => same (.int i) level (by rw [dumpsIn, dumps])
  | float q h => exact fun level => same (.float q h) level (by rw [dumpsIn, dumps])
  | nan => exact fun level => same .nan level (by rw [dumpsIn, dumps])
  | inf b => exact fun level => same (.inf b) level (by rw [dumpsIn, dumps])
  | str s => exact fun level => same (.str s) level (by rw [dumpsIn, dumps])
  | arr l h ih =>
    intro level
    rw [dumpsIn]
    by_cases hl : l = []
    · subst hl
      exact .emptyArr [] blank_nil
    · rw [if_neg hl]
      have := Part.arr (newline indent (level + 1)) _ l (blank_newline _ _)
        (items_blank (newline indent level) (blank_newline _ _) (itemsIn_part env indent (level + 1) l hl fun v hv => ih v hv _))
      simpa using this
  | obj l hn h ih =>
    intro level
    rw [dumpsIn]
    by_cases hl : l = []
    · subst hl
      exact .emptyObj [] blank_nil
    · rw [if_neg hl]
      have := Part.obj (newline indent (level + 1)) _ l (blank_newline _ _)
        (members_blank (newline indent level) (blank_newline _ _)
          (membersIn_part env indent (level + 1) l hl fun v hv => ih v hv _))
      rw [dictOf_nodup l hn] at this
      simpa using this

/-- What is written with an indentation is a JSON text of the value. -/
theorem C146_pretty (env : JEnv) (indent : Nat) (v : JVal) (h : Exact env v) : JsonText env (dumpsIn env indent 0 v) v :=
  ⟨[], _, [], by simp, blank_nil, blank_nil, dumpsIn_part env indent h 0⟩

/-! ## Dumps -/

theorem exact_jStr (env : JEnv) (s : Option Str) : Exact env (jStr s) := by
  cases s with
  | none => exact .null
  | some s => exact .str s

theorem exact_jInt (env : JEnv) (i : Option Int) : Exact env (jInt i) := by
  cases i with
  | none => exact .null
  | some i => exact .int i

theorem exact_table (jenv : JEnv) {α : Type} (key : α → Option Int) (r : α → JVal → Prop) (xs : List α) (j : JVal)
    (h : Spec.Dump.Table key r xs j) (hr : ∀ x v, r x v → Exact jenv v) : Exact jenv j := by
  obtain ⟨d, rfl, h1, -, h2⟩ := h
  refine .obj d h1 ?_
  rintro ⟨k, v⟩ hm
  obtain ⟨x, -, -, hx⟩ := h2 k v hm
  exact hr x v hx

/-- Every dump can be written down exactly. -/
theorem exact_dump (env : Env) (jenv : JEnv) (nets : List Spec.Dump.Net) (j : JVal) (h : IsDump env nets j) : Exact jenv j := by
  refine exact_table jenv _ _ nets j h ?_
  rintro n v ⟨apps, units, ha, hu, rfl⟩
  refine .obj _ (show ["name".toList, "address".toList, "networknumber".toList, "applications".toList, "units".toList].Nodup by decide) ?_
  have hae : Exact jenv apps := by
    refine exact_table jenv _ _ _ _ ha ?_
    rintro a v ⟨groups, hg, rfl⟩
    refine .obj _ (show ["name".toList, "address".toList, "description".toList, "groups".toList].Nodup by decide) ?_
    have hge : Exact jenv groups := exact_table jenv _ _ _ _ hg (by rintro g v rfl; exact exact_jStr _ _)
    intro m hm
    simp only [List.mem_cons, List.not_mem_nil, or_false] at hm
    rcases hm with rfl | rfl | rfl | rfl
    · exact exact_jStr _ _
    · exact exact_jInt _ _
    · exact exact_jStr _ _
    · exact hge
  have hue : Exact jenv units := by
    refine exact_table jenv _ _ _ _ hu ?_
    rintro u v ⟨l, -, rfl⟩
    refine .obj _ (show ["name".toList, "address".toList, "unittype".toList, "unitname".toList, "serial".toList, "catalog".toList, "groups".toList].Nodup by decide) ?_
    intro m hm
    simp only [List.mem_cons, List.not_mem_nil, or_false] at hm
    rcases hm with rfl | rfl | rfl | rfl | rfl | rfl | rfl
    · exact exact_jStr _ _
    · exact exact_jInt _ _
    · exact exact_jStr _ _
    · exact exact_jStr _ _
    · exact exact_jStr _ _
    · exact exact_jStr _ _
    · refine .arr _ ?_
      intro v hv
      obtain ⟨i, -, rfl⟩ := List.mem_map.1 hv
      exact .int i
  intro m hm
  simp only [List.mem_cons, List.not_mem_nil, or_false] at hm
  rcases hm with rfl | rfl | rfl | rfl | rfl
  · exact exact_jStr _ _
  · exact exact_jInt _ _
  · exact exact_jInt _ _
  · exact hae
  · exact hue

theorem open_elem (env : Env) (src : Source) (input : File) (v : CVal) (h : open' env src input = some (.ok v)) :
    ∃ e, fromElement env .installation e = .ok v := by
  have hb : ∀ (x : Py Elem), x.bind (fromElement env .installation) = .ok v → ∃ e, fromElement env .installation e = .ok v := by
    intro x hx
    cases x with
    | error e => cases hx
    | ok e => exact ⟨e, hx⟩
  cases input with
  | plain root => exact hb _ (Option.some.inj h)
  | zip members =>
    unfold open' at h
    simp only at h
    split at h
    · cases h
    · split at h
      · split at h
        · exact hb _ (Option.some.inj h)
        · cases h
      · cases h

/-- A dump that succeeds is the dump of some networks. -/
theorem dumpMain_done (env : Env) (pretty : Option Int) (input : File) (out : DumpOut)
    (h : dumpMain env pretty input = (.done, out)) :
    ∃ nets j indent, IsDump env nets j ∧ out = .json indent j ∧ ∀ i, indent = some i → 0 < i := by
  have go : ∀ indent : Option Int,
      (match open' env .path input with
        | none => (.cbzError, .old)
        | some (.error e) => (.error e, .old)
        | some (.ok installation) =>
          match dump env installation with
          | .error e => (.error e, .empty)
          | .ok j => (.done, .json indent j) : DumpEnd × DumpOut) = (.done, out) →
      ∃ nets j, IsDump env nets j ∧ out = .json indent j := by
    intro indent h
    split at h
    · cases h
    · cases h
    · rename_i v hv
      split at h
      · cases h
      · rename_i j hj
        cases h
        obtain ⟨e, he⟩ := open_elem env _ _ _ hv
        rcases C78_described env e v he with ⟨nets, hn⟩ | ⟨-, hx⟩
        · exact ⟨nets, j, C78_dump env v nets hn j hj, rfl⟩
        · rw [hx] at hj; cases hj
  unfold dumpMain at h
  simp only at h
  split at h
  · obtain ⟨nets, j, h1, h2⟩ := go none h
    exact ⟨nets, j, none, h1, h2, fun i h => by cases h⟩
  · split at h
    · obtain ⟨nets, j, h1, h2⟩ := go none h
      exact ⟨nets, j, none, h1, h2, fun i h => by cases h⟩
    · split at h
      · cases h
      · rename_i p h3 h4
        obtain ⟨nets, j, h1, h2⟩ := go (some p) h
        exact ⟨nets, j, some p, h1, h2, fun i h => by cases h; omega⟩

/-- C146: whenever dump_labels succeeds, whatever the project and the indentation, graph can read the
file and draw it. -/
theorem C146_reads (env : Env) (jenv : JEnv) (pretty : Option Int) (input : File) (out : DumpOut)
    (h : dumpMain env pretty input = (.done, out)) :
    ∃ nets j text gs, IsDump env nets j ∧ dumpText jenv out = some text ∧ loads jenv (utf8 text) = some j ∧
      graphOf jenv (utf8 text) = some gs := by
  obtain ⟨nets, j, indent, h1, rfl, h3⟩ := dumpMain_done env pretty input out h
  have hx := exact_dump env jenv nets j h1
  obtain ⟨gs, hg⟩ := C79_drawn env nets j h1
  have ht : ∃ text, dumpText jenv (.json indent j) = some text ∧ JsonText jenv text j := by
    cases indent with
    | none => exact ⟨_, rfl, (C100_dumps jenv j hx).1⟩
    | some i => exact ⟨_, rfl, C146_pretty jenv _ j hx⟩
  obtain ⟨text, ht, hj⟩ := ht
  have hl := C100_bytes jenv text j hj
  exact ⟨nets, j, text, gs, h1, ht, hl, by unfold graphOf; rw [hl]; exact hg⟩

/-- C146: the indentation makes no difference to the graph. -/
theorem C146_indent (env : Env) (jenv : JEnv) (p q : Option Int) (input : File) (a b : DumpOut) (s t : Str)
    (ha : dumpMain env p input = (.done, a)) (hb : dumpMain env q input = (.done, b))
    (hs : dumpText jenv a = some s) (ht : dumpText jenv b = some t) :
    graphOf jenv (utf8 s) = graphOf jenv (utf8 t) := by
  have key : ∀ (p : Option Int) (a : DumpOut) (s : Str), dumpMain env p input = (.done, a) → dumpText jenv a = some s →
      ∃ v, open' env .path input = some (.ok v) ∧ ∃ j, dump env v = .ok j ∧ loads jenv (utf8 s) = some j := by
    intro p a s ha hs
    obtain ⟨nets, j, text, gs, -, h2, h3, -⟩ := C146_reads env jenv p input a ha
    rw [hs] at h2
    cases h2
    have go : ∀ indent : Option Int,
        (match open' env .path input with
          | none => (.cbzError, .old)
          | some (.error e) => (.error e, .old)
          | some (.ok installation) =>
            match dump env installation with
            | .error e => (.error e, .empty)
            | .ok j => (.done, .json indent j) : DumpEnd × DumpOut) = (.done, a) →
        ∃ v, open' env .path input = some (.ok v) ∧ ∃ j, dump env v = .ok j ∧ a = .json indent j := by
      intro indent h
      split at h
      · cases h
      · cases h
      · rename_i v hv
        split at h
        · cases h
        · rename_i j hj
          cases h
          exact ⟨v, hv, j, hj, rfl⟩
    have hgo : ∃ indent v, open' env .path input = some (.ok v) ∧ ∃ j, dump env v = .ok j ∧ a = .json indent j := by
      unfold dumpMain at ha
      simp only at ha
      split at ha
      · exact ⟨_, go none ha⟩
      · split at ha
        · exact ⟨_, go none ha⟩
        · split at ha
          · cases ha
          · exact ⟨_, go _ ha⟩
    obtain ⟨indent, v, hv, j', hj', rfl⟩ := hgo
    refine ⟨v, hv, j', hj', ?_⟩
    obtain ⟨nets', j'', ind'', h5, h6, -⟩ := dumpMain_done env p input _ ha
    cases h6
    have hx := exact_dump env jenv nets' j' h5
    cases indent with
    | none =>
      cases hs
      exact C100_round_trip jenv j' hx
    | some i =>
      cases hs
      exact C100_bytes jenv _ j' (C146_pretty jenv _ j' hx)
  obtain ⟨v, h1, j, h2, h3⟩ := key p a s ha hs
  obtain ⟨v', h4, j', h5, h6⟩ := key q b t hb ht
  rw [h1] at h4
  cases h4
  rw [h2] at h5
  cases h5
  unfold graphOf
  rw [h3, h6]

/-- C146: from the project file to the graph through the text of the dump. -/
theorem C146_file (env : Env) (jenv : JEnv) (version name : Str) (nets : List NetFile) (hd : Distinct nets)
    (ho : ∀ n ∈ nets, ∀ u ∈ n.units, OtherParams u) (pretty : Option Int) (hp : ∀ i, pretty = some i → 0 ≤ i) :
    ∃ out text gs, dumpMain env pretty (.plain (.ok (projectXml version name nets))) = (.done, out) ∧
      dumpText jenv out = some text ∧ graphOf jenv (utf8 text) = some gs ∧
      All2 (fun n g => ShowsNetwork (toString n.address).toList (n.units.map fileUnit) g) nets gs := by
  obtain ⟨v, j, gs, h1, h2, h3, h4⟩ := C79_file env version name nets hd ho
  obtain ⟨indent, h5, -⟩ := ((C81_output_partial env pretty _).2 hp).2.2 v h1 |>.2 j h2
  obtain ⟨nets', j', ind', h6, h7, -⟩ := dumpMain_done env pretty _ _ h5
  cases h7
  have hx := exact_dump env jenv nets' j h6
  cases indent with
  | none =>
    refine ⟨_, _, gs, h5, rfl, ?_, h4⟩
    unfold graphOf
    rw [C100_round_trip jenv j hx]
    exact h3
  | some i =>
    refine ⟨_, _, gs, h5, rfl, ?_, h4⟩
    unfold graphOf
    rw [C100_bytes jenv _ j (C146_pretty jenv _ j hx)]
    exact h3

/-! ## Only ASCII -/

/-- A printable character of ASCII, or a line end. -/
def Ascii (c : Char) : Prop := c = '\n' ∨ (32 ≤ c.toNat ∧ c.toNat ≤ 126)

theorem newline_ascii (indent level : Nat) : ∀ c ∈ newline indent level, Ascii c := by
  intro c hc
  rcases List.mem_cons.1 hc with rfl | hc
  · exact .inl rfl
  · rw [List.eq_of_mem_replicate hc]
    exact .inr (by decide)

theorem itemsIn_ascii (env : JEnv) (indent level : Nat) : ∀ (l : List JVal),
    (∀ v ∈ l, ∀ c ∈ dumpsIn env indent level v, Ascii c) → ∀ c ∈ itemsIn env indent level l, Ascii c
  | [], _, c, hc => by simp [itemsIn] at hc
  | [v], h, c, hc => by
    rw [itemsIn] at hc
    exact h v (by simp) c hc
  | v :: w :: l, h, c, hc => by
    rw [itemsIn] at hc
    · simp only [List.mem_append] at hc
      rcases hc with ((hc | hc) | hc) | hc
      · exact h v (by simp) c hc
      · exact .inr (by revert c; decide)
      · exact newline_ascii _ _ c hc
      · exact itemsIn_ascii env indent level (w :: l) (fun x hx => h x (List.mem_cons_of_mem _ hx)) c hc
    · intro h; cases h

theorem membersIn_ascii (env : JEnv) (indent level : Nat) : ∀ (l : List (Str × JVal)),
    (∀ m ∈ l, ∀ c ∈ dumpsIn env indent level m.2, Ascii c) → ∀ c ∈ membersIn env indent level l, Ascii c
  | [], _, c, hc => by simp [membersIn] at hc
  | [(k, v)], h, c, hc => by
    rw [membersIn] at hc
    simp only [List.mem_append] at hc
    rcases hc with (hc | hc) | hc
    · exact .inr (dumpString_printable k c hc)
    · exact .inr (by revert c; decide)
    · exact h (k, v) (by simp) c hc
  | (k, v) :: w :: l, h, c, hc => by
    rw [membersIn] at hc
    · simp only [List.mem_append] at hc
      rcases hc with ((((hc | hc) | hc) | hc) | hc) | hc
      · exact .inr (dumpString_printable k c hc)
      · exact .inr (by revert c; decide)
      · exact h (k, v) (by simp) c hc
      · exact .inr (by revert c; decide)
      · exact newline_ascii _ _ c hc
      · exact membersIn_ascii env indent level (w :: l) (fun x hx => h x (List.mem_cons_of_mem _ hx)) c hc
    · intro h; cases h

theorem dumpsIn_ascii (env : JEnv) (indent : Nat) {v : JVal} (h : Exact env v) :
    ∀ level, ∀ c ∈ dumpsIn env indent level v, Ascii c := by
  have same : ∀ {v : JVal}, Exact env v → ∀ level, dumpsIn env indent level v = dumps env v →
      ∀ c ∈ dumpsIn env indent level v, Ascii c := fun hv level e c hc => .inr (dumps_printable env hv c (e ▸ hc))
  induction h with
  | null => exact fun level => same .null level (by rw [dumpsIn, dumps])
  | bool b => exact fun level => same (.bool b) level (by rw [dumpsIn, dumps])
  | int i => exact fun level => same (.int i) level (by rw [dumpsIn, dumps])
  | float q h => exact fun level => same (.float q h) level (by rw [dumpsIn, dumps])
  | nan => exact fun level => same .nan level (by rw [dumpsIn, dumps])
  | inf b => exact fun level => same (.inf b) level (by rw [dumpsIn, dumps])
  | str s => exact fun level => same (.str s) level (by rw [dumpsIn, dumps])
  | arr l h ih =>
    intro level c hc
    rw [dumpsIn] at hc
    split at hc
    · exact .inr (by revert c; decide)
    · simp only [List.cons_append, List.mem_append, List.mem_cons, List.not_mem_nil, or_false] at hc
      rcases hc with rfl | ((hc | hc) | hc) | rfl
      · exact .inr (by decide)
      · exact newline_ascii _ _ c hc
      · exact itemsIn_ascii env indent _ l (fun v hv => ih v hv _) c hc
      · exact newline_ascii _ _ c hc
      · exact .inr (by decide)
  | obj l hn h ih =>
    intro level c hc
    rw [dumpsIn] at hc
    split at hc
    · exact .inr (by revert c; decide)
    · simp only [List.cons_append, List.mem_append, List.mem_cons, List.not_mem_nil, or_false] at hc
      rcases hc with rfl | ((hc | hc) | hc) | rfl
      · exact .inr (by decide)
      · exact newline_ascii _ _ c hc
      · exact membersIn_ascii env indent _ l (fun m hm => ih m hm _) c hc
      · exact newline_ascii _ _ c hc
      · exact .inr (by decide)

/-- C146: the file holds nothing but ASCII, so its bytes are the same in every encoding that extends
ASCII, whatever the locale. -/
theorem C146_ascii (env : Env) (jenv : JEnv) (pretty : Option Int) (input : File) (out : DumpOut) (text : Str)
    (h : dumpMain env pretty input = (.done, out)) (ht : dumpText jenv out = some text) : ∀ c ∈ text, Ascii c := by
  obtain ⟨nets, j, indent, h1, rfl, -⟩ := dumpMain_done env pretty input out h
  have hx := exact_dump env jenv nets j h1
  cases indent with
  | none => cases ht; exact fun c hc => .inr (dumps_printable jenv hx c hc)
  | some i => cases ht; exact dumpsIn_ascii jenv _ hx 0

/-- C146: a dump that fails leaves a file that graph refuses, or the file as it was. -/
theorem C146_failed (env : Env) (jenv : JEnv) (pretty : Option Int) (input : File) (out : DumpOut) (text : Str)
    (h : (dumpMain env pretty input).2 = out) (hn : (dumpMain env pretty input).1 ≠ .done)
    (ht : dumpText jenv out = some text) : graphOf jenv (utf8 text) = none := by
  have go : ∀ indent : Option Int, ∀ r : DumpEnd × DumpOut,
      (match open' env .path input with
        | none => (.cbzError, .old)
        | some (.error e) => (.error e, .old)
        | some (.ok installation) =>
          match dump env installation with
          | .error e => (.error e, .empty)
          | .ok j => (.done, .json indent j) : DumpEnd × DumpOut) = r → r.1 = .done ∨ r.2 = .old ∨ r.2 = .empty := by
    intro indent r h
    subst h
    split
    · exact .inr (.inl rfl)
    · exact .inr (.inl rfl)
    · split
      · exact .inr (.inr rfl)
      · exact .inl rfl
  have hr : (dumpMain env pretty input).1 = .done ∨ (dumpMain env pretty input).2 = .old ∨
      (dumpMain env pretty input).2 = .empty := by
    unfold dumpMain
    simp only
    split
    · exact go none _ rfl
    · split
      · exact go none _ rfl
      · split
        · exact .inr (.inl rfl)
        · exact go _ _ rfl
  rcases hr with hr | hr | hr
  · exact absurd hr hn
  · rw [← h, hr] at ht; cases ht
  · rw [← h, hr] at ht
    cases ht
    rfl

/-! ## Cases -/

def exampleJEnv : JEnv := ⟨fun _ => .nan, fun _ => [], fun _ => 'x', fun _ => none⟩

example : dumpsIn exampleJEnv 2 0 (.obj [("a".toList, .arr [.num (.int 1), .num (.int (-2))]), ("é".toList, .obj [])]) =
    "{\n  \"a\": [\n    1,\n    -2\n  ],\n  \"\\u00e9\": {}\n}".toList := by decide +kernel

/-- The project with two networks, dumped with `--pretty`, is drawn with both. -/
example : ∃ out text gs, dumpMain .ascii (some 1) (.plain (.ok (projectXml "2.3".toList "P".toList exampleProject))) = (.done, out) ∧
    dumpText exampleJEnv out = some text ∧ graphOf exampleJEnv (utf8 text) = some gs ∧ gs.length = 2 := by
  obtain ⟨out, text, gs, h1, h2, h3, h4⟩ := C146_file .ascii exampleJEnv "2.3".toList "P".toList exampleProject
    (by unfold Distinct; decide +kernel) (by unfold OtherParams; decide +kernel) (some 1) (by intro i h; cases h; decide)
  refine ⟨out, text, gs, h1, h2, h3, ?_⟩
  unfold exampleProject at h4
  match gs, h4 with
  | [_, _], _ => rfl
  | [], h4 => exact h4.elim
  | [_], h4 => exact h4.2.elim
  | _ :: _ :: _ :: _, h4 => exact h4.2.2.elim

/-- A name that is not in ASCII is written with an escape. -/
example : dumpText exampleJEnv (.json (some 1) (.obj [("name".toList, .str "Büro".toList)])) =
    some "{\n \"name\": \"B\\u00fcro\"\n}".toList ∧
    loads exampleJEnv (utf8 "{\n \"name\": \"B\\u00fcro\"\n}".toList) = some (.obj [("name".toList, .str "Büro".toList)]) := by
  decide +kernel

/-- A dump that fails leaves an empty file, which is refused. -/
example : graphOf exampleJEnv (utf8 []) = none := rfl

end CBus.Props
