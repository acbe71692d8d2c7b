import Verif.Props.CbzFile
import Verif.Spec.Dump

/-! # C78: what `dump_labels` writes -/

namespace CBus.Props
open CBus CBus.Cbz CBus.Spec.Cbz
open CBus.Spec.Dump (Table LastWith addressKey jInt jStr Parts Numbers UnitGroups IsGroupJson IsAppJson IsUnitJson
  IsNetJson IsDump IsParam IsUnit)

/-! ## Helpers -/

theorem splitOn_ne_nil (sep : Char) (s : Str) : splitOn sep s ≠ [] := by
  cases s with
  | nil => simp [splitOn]
  | cons c r =>
    unfold splitOn
    split
    · simp
    · split <;> simp

theorem intercalate_cons {α : Type} (sep w : List α) (ws : List (List α)) (h : ws ≠ []) :
    List.intercalate sep (w :: ws) = w ++ sep ++ List.intercalate sep ws := by
  cases ws with
  | nil => exact absurd rfl h
  | cons x xs => simp [List.intercalate, List.intersperse]

theorem splitOn_parts (s : Str) : Parts s (splitOn ' ' s) := by
  refine ⟨splitOn_ne_nil _ _, ?_, ?_⟩
  · induction s with
    | nil => simp [splitOn]
    | cons c r ih =>
      unfold splitOn
      split
      · intro w hw
        rcases List.mem_cons.1 hw with rfl | hw
        · simp
        · exact ih w hw
      · rename_i hc
        split
        · rename_i w ws e
          rw [e] at ih
          intro x hx
          rcases List.mem_cons.1 hx with rfl | hx
          · intro hm
            rcases List.mem_cons.1 hm with h | h
            · exact hc h.symm
            · exact ih w List.mem_cons_self h
          · exact ih x (List.mem_cons_of_mem _ hx)
        · intro x hx
          rw [List.mem_singleton] at hx
          subst hx
          simpa using fun h => hc h.symm
  · induction s with
    | nil => simp [splitOn, List.intercalate]
    | cons c r ih =>
      unfold splitOn
      split
      · rename_i hc
        rw [intercalate_cons _ _ _ (splitOn_ne_nil _ _), ← ih, hc]
        rfl
      · split
        · rename_i w ws e
          rw [e] at ih
          cases ws with
          | nil =>
            simp [List.intercalate] at ih ⊢
            exact ih
          | cons x xs =>
            rw [intercalate_cons _ _ _ (by simp)] at ih ⊢
            rw [ih]
            simp
        · rename_i e
          exact absurd e (splitOn_ne_nil _ _)

theorem splitOn_nosep (w : Str) (h : ' ' ∉ w) : splitOn ' ' w = [w] := by
  induction w with
  | nil => rfl
  | cons c r ih =>
    unfold splitOn
    rw [if_neg (fun e : c = ' ' => h (e ▸ List.mem_cons_self)), ih fun hm => h (List.mem_cons_of_mem _ hm)]

theorem splitOn_append (w : Str) (h : ' ' ∉ w) (r : Str) : splitOn ' ' (w ++ ' ' :: r) = w :: splitOn ' ' r := by
  induction w with
  | nil => simp [splitOn]
  | cons c w ih =>
    rw [List.cons_append, splitOn.eq_2, if_neg (fun e : c = ' ' => h (e ▸ List.mem_cons_self)), ih fun hm => h (List.mem_cons_of_mem _ hm)]

theorem parts_unique (s : Str) (items : List Str) (h : Parts s items) : splitOn ' ' s = items := by
  obtain ⟨h1, h2, rfl⟩ := h
  induction items with
  | nil => exact absurd rfl h1
  | cons w ws ih =>
    cases ws with
    | nil =>
      simp only [List.intercalate, List.intersperse, List.flatten_cons, List.flatten_nil, List.append_nil]
      exact splitOn_nosep w (h2 w List.mem_cons_self)
    | cons x xs =>
      rw [intercalate_cons _ _ _ (by simp), List.append_assoc, List.singleton_append,
        splitOn_append w (h2 w List.mem_cons_self), ih (by simp) fun y hy => h2 y (List.mem_cons_of_mem _ hy)]

theorem listMap_ok {α β : Type} (f : α → Py β) : ∀ (l : List α) (r : List β),
    listMap f l = .ok r ↔ All2 (fun x y => f x = .ok y) l r
  | [], [] => by simp [listMap, All2]
  | [], y :: ys => by simp [listMap, All2]
  | x :: xs, r => by
    unfold listMap
    simp only [bind, Except.bind, pure, Except.pure]
    cases hx : f x with
    | error e => cases r <;> simp [All2, hx]
    | ok y =>
      simp only
      cases hs : listMap f xs with
      | error e =>
        cases r with
        | nil => simp [All2]
        | cons z zs =>
          simp only [All2, reduceCtorEq, false_iff, not_and]
          intro _ h
          rw [(listMap_ok f xs zs).2 h] at hs
          cases hs
      | ok ys =>
        cases r with
        | nil => simp [All2]
        | cons z zs =>
          simp only [All2, Except.ok.injEq, List.cons.injEq, hx, ← listMap_ok f xs zs, hs]

theorem all2_congr {α β : Type} {r q : α → β → Prop} (h : ∀ x y, r x y ↔ q x y) : ∀ (l : List α) (m : List β),
    All2 r l m ↔ All2 q l m
  | [], [] => Iff.rfl
  | [], _ :: _ => Iff.rfl
  | _ :: _, [] => Iff.rfl
  | x :: l, y :: m => by simp only [All2, h x y, all2_congr h l m]

theorem numbers_iff (env : Env) (value : Option Str) (l : List Int) :
    Numbers env value l ↔ dumpItems env (optStr value) = .ok l := by
  cases value with
  | none => simp [Numbers, optStr, dumpItems]
  | some s =>
    simp only [optStr, dumpItems, listMap_ok]
    rw [all2_congr (fun (w : Str) i => (C96_hexadecimal env.uni (w.drop 2)).1 i)]
    constructor
    · rintro ⟨s', items, e, hp, h⟩
      injection e with e
      subst e
      rw [parts_unique _ _ hp]
      exact h
    · intro h
      exact ⟨s, _, rfl, splitOn_parts s, h⟩

theorem eqStr_iff (s : Option Str) (t : Str) : eqStr (optStr s) t = true ↔ s = some t := by
  cases s <;> simp [optStr, eqStr]

theorem dumpChannels_iff (env : Env) : ∀ (ps : List CVal) (params : List (Option Str × Option Str))
    (ch r : List Int), All2 IsParam ps params →
    (dumpChannels env ch ps = .ok r ↔ ∃ l, r = ch ++ l ∧ UnitGroups env params l)
  | [], [], ch, r, _ => by
    simp only [dumpChannels, UnitGroups, Except.ok.injEq]
    constructor
    · intro h; exact ⟨[], by simp [h], rfl⟩
    · rintro ⟨l, rfl, rfl⟩; simp
  | [], _ :: _, _, _, h => h.elim
  | _ :: _, [], _, _, h => h.elim
  | p :: ps, q :: params, ch, r, ⟨⟨h1, h2⟩, h3⟩ => by
    unfold dumpChannels
    simp only [bind, Except.bind, getattr_attr h1, getattr_attr h2]
    by_cases hq : q.1 = some "GroupAddress".toList
    · rw [if_pos ((eqStr_iff _ _).2 hq)]
      cases hi : dumpItems env (optStr q.2) with
      | error e =>
        simp only [reduceCtorEq, false_iff]
        rintro ⟨l, rfl, hl⟩
        unfold UnitGroups at hl
        rcases hl with ⟨-, l1, l2, -, hn, -⟩ | ⟨hl, -⟩
        · rw [(numbers_iff _ _ _).1 hn] at hi; cases hi
        · exact hl hq
      | ok items =>
        simp only
        rw [dumpChannels_iff env ps params _ r h3]
        constructor
        · rintro ⟨l, rfl, hl⟩
          refine ⟨items ++ l, by simp, ?_⟩
          unfold UnitGroups
          exact .inl ⟨hq, items, l, rfl, (numbers_iff _ _ _).2 hi, hl⟩
        · rintro ⟨l, rfl, hl⟩
          unfold UnitGroups at hl
          rcases hl with ⟨-, l1, l2, rfl, hn, hl⟩ | ⟨hl, -⟩
          · have := ((numbers_iff _ _ _).1 hn).symm.trans hi
            injection this with this
            subst this
            exact ⟨l2, by simp, hl⟩
          · exact absurd hq hl
    · rw [if_neg fun h => hq ((eqStr_iff _ _).1 h), dumpChannels_iff env ps params _ r h3]
      constructor
      · rintro ⟨l, rfl, hl⟩
        refine ⟨l, rfl, ?_⟩
        unfold UnitGroups
        exact .inr ⟨hq, hl⟩
      · rintro ⟨l, rfl, hl⟩
        unfold UnitGroups at hl
        rcases hl with ⟨h, -⟩ | ⟨-, hl⟩
        · exact absurd h hq
        · exact ⟨l, rfl, hl⟩

theorem toJson_int (i : Option Int) : toJson (optInt i) = .ok (jInt i) := by cases i <;> rfl
theorem toJson_str (s : Option Str) : toJson (optStr s) = .ok (jStr s) := by cases s <;> rfl

theorem jattr_int {v : CVal} {n : String} {i : Option Int} (h : Attr v n (optInt i)) : jattr v n = .ok (jInt i) := by
  unfold jattr
  simp only [bind, Except.bind, getattr_attr h, toJson_int]

theorem jattr_str {v : CVal} {n : String} {s : Option Str} (h : Attr v n (optStr s)) : jattr v n = .ok (jStr s) := by
  unfold jattr
  simp only [bind, Except.bind, getattr_attr h, toJson_str]

theorem keyStr_eq (i : Option Int) : keyStr i = addressKey i := by
  cases i with
  | none => rfl
  | some i => exact intStr_toString i

theorem addressKey_inj {i j : Option Int} (h : addressKey i = addressKey j) : i = j := by
  rw [← keyStr_eq, ← keyStr_eq] at h
  have hn : ∀ i : Int, intStr i ≠ "null".toList := by
    intro i e
    rcases intStr_char i 'n' (by rw [e]; decide) with h | h
    · revert h; decide
    · revert h; decide
  cases i <;> cases j
  · rfl
  · exact absurd h.symm (hn _)
  · exact absurd h (hn _)
  · rw [intStr_inj h]

theorem dumpGroups_eq : ∀ (d : List (Option Int × JVal)) (l : List CVal),
    dumpGroups d l = dumpTable (fun g => jattr g "tag_name") d l
  | d, [] => rfl
  | d, g :: l => by
    unfold dumpGroups dumpTable
    simp only [bind, Except.bind]
    cases jattr g "tag_name" with
    | error e => rfl
    | ok n =>
      simp only
      cases getattr g "address" with
      | error e => rfl
      | ok a =>
        simp only
        cases keyOf a with
        | error e => rfl
        | ok k => exact dumpGroups_eq _ l

theorem lastWith_cons {α : Type} {key : α → Option Int} {xs : List α} {x y : α} (h : LastWith key xs x) :
    LastWith key (y :: xs) x := by
  obtain ⟨pre, post, rfl, h⟩ := h
  exact ⟨y :: pre, post, rfl, h⟩

/-- What the loops leave in the dictionary. -/
theorem dumpTable_spec {α : Type} (f : CVal → Py JVal) (key : α → Option Int) (R : CVal → α → Prop)
    (hk : ∀ w x, R w x → Attr w "address" (optInt (key x))) (P : α → JVal → Prop)
    (hp : ∀ w x v, R w x → f w = .ok v → P x v) :
    ∀ (ws : List CVal) (xs : List α), All2 R ws xs → ∀ d0 d, (d0.map (·.1)).Nodup →
      dumpTable f d0 ws = .ok d →
      (d.map (·.1)).Nodup ∧ (∀ k ∈ d0.map (·.1), k ∈ d.map (·.1)) ∧ (∀ x ∈ xs, key x ∈ d.map (·.1)) ∧
      ∀ k v, (k, v) ∈ d → (∃ x, LastWith key xs x ∧ k = key x ∧ P x v) ∨ ((k, v) ∈ d0 ∧ ∀ x ∈ xs, key x ≠ k)
  | [], [], _, d0, d, hn, h => by
    injection h with h
    subst h
    exact ⟨hn, fun _ h => h, by simp, fun k v h => .inr ⟨h, by simp⟩⟩
  | [], _ :: _, h, _, _, _, _ => h.elim
  | _ :: _, [], h, _, _, _, _ => h.elim
  | w :: ws, x :: xs, ⟨hr, ha⟩, d0, d, hn, h => by
    unfold dumpTable at h
    simp only [bind, Except.bind, getattr_attr (hk w x hr), keyOf_optInt] at h
    cases hf : f w with
    | error e => simp [hf] at h
    | ok o =>
      simp only [hf] at h
      obtain ⟨k1, k2, k3, k4⟩ := dumpTable_spec f key R hk P hp ws xs ha _ d (dictSet_nodup d0 (key x) o hn) h
      have hset : ∀ k v, (k, v) ∈ dictSet d0 (key x) o → (k = key x ∧ v = o) ∨ ((k, v) ∈ d0 ∧ key x ≠ k) := by
        intro k v hm
        have hg := dictGet_of_mem _ k v (dictSet_nodup d0 (key x) o hn) hm
        rw [dictGet_dictSet] at hg
        split at hg
        · rename_i e
          injection hg with hg
          exact .inl ⟨e.symm, hg.symm⟩
        · rename_i e
          exact .inr ⟨dictGet_mem _ _ _ hg, e⟩
      have hkeys : ∀ k, k ∈ d0.map (·.1) ∨ k = key x → k ∈ (dictSet d0 (key x) o).map (·.1) := by
        intro k hk'
        by_cases e : key x = k
        · have : dictGet (dictSet d0 (key x) o) k = some o := by rw [dictGet_dictSet, if_pos e]
          exact List.mem_map.2 ⟨_, dictGet_mem _ _ _ this, rfl⟩
        · have hk' : k ∈ d0.map (·.1) := by
            rcases hk' with h | h
            · exact h
            · exact absurd h.symm e
          obtain ⟨⟨k', v⟩, hv, rfl⟩ := List.mem_map.1 hk'
          have : dictGet (dictSet d0 (key x) o) k' = some v := by
            rw [dictGet_dictSet, if_neg e]
            exact dictGet_of_mem _ _ _ hn hv
          exact List.mem_map.2 ⟨_, dictGet_mem _ _ _ this, rfl⟩
      refine ⟨k1, fun k hk' => k2 k (hkeys k (.inl hk')), ?_, ?_⟩
      · intro y hy
        rcases List.mem_cons.1 hy with rfl | hy
        · exact k2 _ (hkeys _ (.inr rfl))
        · exact k3 y hy
      · intro k v hm
        rcases k4 k v hm with ⟨y, h1, h2, h3⟩ | ⟨h1, h2⟩
        · exact .inl ⟨y, lastWith_cons h1, h2, h3⟩
        · rcases hset k v h1 with ⟨rfl, rfl⟩ | ⟨h3, h4⟩
          · exact .inl ⟨x, ⟨[], xs, rfl, h2⟩, rfl, hp w x _ hr hf⟩
          · refine .inr ⟨h3, fun y hy => ?_⟩
            rcases List.mem_cons.1 hy with rfl | hy
            · exact h4
            · exact h2 y hy

theorem jsonDict_table {α : Type} (f : CVal → Py JVal) (key : α → Option Int) (R : CVal → α → Prop)
    (hk : ∀ w x, R w x → Attr w "address" (optInt (key x))) (P : α → JVal → Prop)
    (hp : ∀ w x v, R w x → f w = .ok v → P x v) (ws : List CVal) (xs : List α) (h : All2 R ws xs)
    (d : List (Option Int × JVal)) (hd : dumpTable f [] ws = .ok d) : Table key P xs (jsonDict d) := by
  obtain ⟨h1, -, h3, h4⟩ := dumpTable_spec f key R hk P hp ws xs h [] d (by simp) hd
  have hm : (d.map fun p => (keyStr p.1, p.2)).map (·.1) = (d.map (·.1)).map addressKey := by
    rw [List.map_map, List.map_map]
    apply List.map_congr_left
    intro p _
    exact keyStr_eq p.1
  refine ⟨_, rfl, ?_, ?_, ?_⟩
  · rw [hm]
    unfold List.Nodup at h1 ⊢
    rw [List.pairwise_map]
    exact h1.imp fun hne e => hne (addressKey_inj e)
  · intro x hx
    rw [hm]
    exact List.mem_map_of_mem (h3 x hx)
  · intro k v hkv
    obtain ⟨⟨k', v'⟩, hp', e⟩ := List.mem_map.1 hkv
    injection e with e1 e2
    subst e1 e2
    rcases h4 k' v' hp' with ⟨x, l1, rfl, l3⟩ | ⟨h, -⟩
    · exact ⟨x, l1, keyStr_eq _, l3⟩
    · cases h

/-- The loops succeed iff they do for each item. -/
theorem dumpTable_ok {α : Type} (f : CVal → Py JVal) (key : α → Option Int) (R : CVal → α → Prop)
    (hk : ∀ w x, R w x → Attr w "address" (optInt (key x))) (Q : α → Prop)
    (hq : ∀ w x, R w x → ((∃ v, f w = .ok v) ↔ Q x)) :
    ∀ (ws : List CVal) (xs : List α), All2 R ws xs → ∀ d0,
      ((∃ d, dumpTable f d0 ws = .ok d) ↔ ∀ x ∈ xs, Q x)
  | [], [], _, d0 => by simp [dumpTable]
  | [], _ :: _, h, _ => h.elim
  | _ :: _, [], h, _ => h.elim
  | w :: ws, x :: xs, ⟨hr, ha⟩, d0 => by
    unfold dumpTable
    simp only [bind, Except.bind, getattr_attr (hk w x hr), keyOf_optInt]
    cases hf : f w with
    | error e =>
      constructor
      · rintro ⟨d, h⟩; cases h
      · intro h
        obtain ⟨v, hv⟩ := (hq w x hr).2 (h x List.mem_cons_self)
        rw [hf] at hv; cases hv
    | ok o =>
      simp only
      rw [dumpTable_ok f key R hk Q hq ws xs ha _]
      constructor
      · intro h y hy
        rcases List.mem_cons.1 hy with rfl | hy
        · exact (hq w _ hr).1 ⟨o, hf⟩
        · exact h y hy
      · intro h y hy
        exact h y (List.mem_cons_of_mem _ hy)

/-! ## The parts of the dump -/

theorem dumpGroups_ok (gs : List CVal) (xs : List Group) (h : All2 IsGroup gs xs) :
    ∃ d, dumpGroups [] gs = .ok d := by
  rw [dumpGroups_eq]
  refine (dumpTable_ok _ Group.address IsGroup (fun w x h => h.1) (fun _ => True) ?_ gs xs h []).2 fun _ _ => trivial
  intro w x hw
  exact ⟨fun _ => trivial, fun _ => ⟨_, jattr_str hw.2⟩⟩

theorem dumpApp_json (v : CVal) (a : Spec.Dump.App) (h : Spec.Dump.IsApp v a) :
    ∃ j, dumpApp v = .ok j ∧ IsAppJson a j := by
  obtain ⟨h1, h2, h3, gs, h4, h5⟩ := h
  obtain ⟨d, hd⟩ := dumpGroups_ok gs _ h5
  unfold dumpApp
  simp only [bind, Except.bind, pure, Except.pure, jattr_str h2, jattr_int h1, jattr_str h3, getattr_attr h4, iter, hd]
  refine ⟨_, rfl, jsonDict d, ?_, rfl⟩
  rw [dumpGroups_eq] at hd
  refine jsonDict_table _ Group.address IsGroup (fun w x h => h.1) IsGroupJson ?_ gs _ h5 d hd
  intro w x j hw hj
  rw [jattr_str hw.2] at hj
  injection hj with hj
  exact hj.symm

theorem dumpUnit_json (env : Env) (v : CVal) (u : Spec.Dump.Unit) (h : IsUnit v u) :
    (∀ j, dumpUnit env v = .ok j → IsUnitJson env u j) ∧
    ((∃ j, dumpUnit env v = .ok j) ↔ ∃ l, UnitGroups env u.params l) := by
  obtain ⟨h1, h2, h3, h4, h5, h6, ps, h7, h8⟩ := h
  unfold dumpUnit
  simp only [bind, Except.bind, pure, Except.pure, jattr_str h2, jattr_int h1, jattr_str h3, jattr_str h4,
    jattr_str h5, jattr_str h6, getattr_attr h7, iter]
  cases hc : dumpChannels env [] ps with
  | error e =>
    refine ⟨fun _ hj => (nomatch hj), (⟨fun ⟨_, hj⟩ => (nomatch hj), fun ⟨l, hl⟩ => ?_⟩)⟩
    rw [(dumpChannels_iff env ps _ [] l h8).2 ⟨l, rfl, hl⟩] at hc
    cases hc
  | ok ch =>
    obtain ⟨l, e, hl⟩ := (dumpChannels_iff env ps _ [] ch h8).1 hc
    rw [List.nil_append] at e
    subst e
    refine ⟨fun j hj => ?_, ⟨fun _ => ⟨ch, hl⟩, fun _ => ⟨_, rfl⟩⟩⟩
    injection hj with hj
    exact ⟨ch, hl, hj.symm⟩

/-- The units of a network whose parameters can be read. -/
theorem dumpNet_json (env : Env) (v : CVal) (n : Spec.Dump.Net) (h : Spec.Dump.IsNet v n) :
    (∀ j, dumpNet env v = .ok j → IsNetJson env n j) ∧
    ((∃ j, dumpNet env v = .ok j) ↔ ∀ u ∈ n.units, ∃ l, UnitGroups env u.params l) := by
  obtain ⟨h1, h2, h3, ⟨as, h4, h5⟩, us, h6, h7⟩ := h
  have ha : ∃ d, dumpTable dumpApp [] as = .ok d :=
    (dumpTable_ok dumpApp Spec.Dump.App.address Spec.Dump.IsApp (fun w x h => h.1) (fun _ => True)
      (fun w x hw => ⟨fun _ => trivial, fun _ => by obtain ⟨j, hj, -⟩ := dumpApp_json w x hw; exact ⟨j, hj⟩⟩)
      as _ h5 []).2 fun _ _ => trivial
  obtain ⟨d, hd⟩ := ha
  have hu := dumpTable_ok (dumpUnit env) Spec.Dump.Unit.address IsUnit (fun w x h => h.1)
    (fun u => ∃ l, UnitGroups env u.params l) (fun w x hw => (dumpUnit_json env w x hw).2) us _ h7 []
  rw [← hu]
  unfold dumpNet
  simp only [bind, Except.bind, pure, Except.pure, jattr_str h2, jattr_int h1, jattr_int h3, getattr_attr h4,
    getattr_attr h6, iter, hd]
  cases hud : dumpTable (dumpUnit env) [] us with
  | error e => exact ⟨fun _ hj => (nomatch hj), (⟨fun ⟨_, hj⟩ => (nomatch hj), fun ⟨_, hj⟩ => (nomatch hj)⟩)⟩
  | ok du =>
    refine ⟨fun j hj => ?_, ⟨fun _ => ⟨du, rfl⟩, fun _ => ⟨_, rfl⟩⟩⟩
    injection hj with hj
    refine ⟨jsonDict d, jsonDict du, ?_, ?_, hj.symm⟩
    · refine jsonDict_table dumpApp _ Spec.Dump.IsApp (fun w x h => h.1) IsAppJson ?_ as _ h5 d hd
      intro w x j hw hj
      obtain ⟨j', h1, h2⟩ := dumpApp_json w x hw
      rw [hj] at h1
      injection h1 with h1
      exact h1 ▸ h2
    · exact jsonDict_table (dumpUnit env) _ IsUnit (fun w x h => h.1) (IsUnitJson env)
        (fun w x j hw hj => (dumpUnit_json env w x hw).1 j hj) us _ h7 du hud

/-! ## C78 -/

/-- C78: the dump of a project has, for each address, the last network, application,
group and unit with that address, with its names and the groups of its parameters. -/
theorem C78_dump (env : Env) (v : CVal) (nets : List Spec.Dump.Net) (h : Spec.Dump.IsInstallation v nets)
    (j : JVal) (hj : dump env v = .ok j) : IsDump env nets j := by
  obtain ⟨p, ns, h1, h2, h3⟩ := h
  unfold dump at hj
  simp only [bind, Except.bind, pure, Except.pure, getattr_attr h1, getattr_attr h2, iter] at hj
  cases hd : dumpTable (dumpNet env) [] ns with
  | error e => simp [hd] at hj
  | ok d =>
    simp only [hd, Except.ok.injEq] at hj
    subst hj
    exact jsonDict_table (dumpNet env) _ Spec.Dump.IsNet (fun w x h => h.1) (IsNetJson env)
      (fun w x j hw hj => (dumpNet_json env w x hw).1 j hj) ns _ h3 d hd

/-- C78: the dump succeeds iff the group addresses of every unit can be read. -/
theorem C78_succeeds (env : Env) (v : CVal) (nets : List Spec.Dump.Net) (h : Spec.Dump.IsInstallation v nets) :
    (∃ j, dump env v = .ok j) ↔ ∀ n ∈ nets, ∀ u ∈ n.units, ∃ l, UnitGroups env u.params l := by
  obtain ⟨p, ns, h1, h2, h3⟩ := h
  have hn := dumpTable_ok (dumpNet env) Spec.Dump.Net.address Spec.Dump.IsNet (fun w x h => h.1)
    (fun n => ∀ u ∈ n.units, ∃ l, UnitGroups env u.params l) (fun w x hw => (dumpNet_json env w x hw).2) ns _ h3 []
  rw [← hn]
  unfold dump
  simp only [bind, Except.bind, pure, Except.pure, getattr_attr h1, getattr_attr h2, iter]
  cases dumpTable (dumpNet env) [] ns with
  | error e => exact ⟨fun ⟨_, hj⟩ => (nomatch hj), fun ⟨_, hj⟩ => (nomatch hj)⟩
  | ok d => exact ⟨fun _ => ⟨d, rfl⟩, fun _ => ⟨_, rfl⟩⟩

end CBus.Props
