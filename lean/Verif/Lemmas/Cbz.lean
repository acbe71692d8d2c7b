import Verif.Spec.Cbz
import Verif.Lemmas.Dict

/-! # Lemmas about project files -/

namespace CBus.Cbz
open CBus CBus.Spec.Cbz

theorem dropWhile_s (s : Str) : ∃ n, s = List.replicate n 's' ++ s.dropWhile (· = 's') := by
  induction s with
  | nil => exact ⟨0, rfl⟩
  | cons c s ih =>
    by_cases h : c = 's'
    · obtain ⟨n, hn⟩ := ih
      refine ⟨n + 1, ?_⟩
      rw [List.dropWhile_cons, if_pos (by simpa using h), List.replicate_succ, List.cons_append, ← hn, h]
    · refine ⟨0, ?_⟩
      rw [List.dropWhile_cons, if_neg (by simpa using h)]
      rfl

theorem rstripS_spec (s : Str) :
    ∃ n, s = rstripS s ++ List.replicate n 's' ∧ (rstripS s).getLast? ≠ some 's' := by
  obtain ⟨n, hn⟩ := dropWhile_s s.reverse
  refine ⟨n, ?_, ?_⟩
  · have h := congrArg List.reverse hn
    rw [List.reverse_append, List.reverse_reverse, List.reverse_replicate] at h
    exact h
  · unfold rstripS
    rw [List.getLast?_reverse]
    intro h
    have := List.head?_dropWhile_not (fun c : Char => decide (c = 's')) s.reverse
    rw [h] at this
    simp at this

theorem isKey_normalise (env : Env) (name : Str) : IsKey env name (normalise env name) :=
  rstripS_spec _

theorem getLast?_append_s (k : Str) (n : Nat) :
    (k ++ List.replicate (n + 1) 's').getLast? = some 's' := by
  rw [List.replicate_succ', ← List.append_assoc, List.getLast?_append]
  simp

theorem key_unique_aux : ∀ (n m : Nat) (k l : Str), k.getLast? ≠ some 's' → l.getLast? ≠ some 's' →
    k ++ List.replicate n 's' = l ++ List.replicate m 's' → k = l
  | 0, 0, k, l, _, _, h => by simpa using h
  | 0, m + 1, k, l, hk, _, h => by
    exfalso
    rw [List.replicate_zero, List.append_nil] at h
    rw [h, getLast?_append_s] at hk
    exact hk rfl
  | n + 1, 0, k, l, _, hl, h => by
    exfalso
    rw [List.replicate_zero, List.append_nil] at h
    rw [← h, getLast?_append_s] at hl
    exact hl rfl
  | n + 1, m + 1, k, l, hk, hl, h => by
    rw [List.replicate_succ', List.replicate_succ', ← List.append_assoc, ← List.append_assoc] at h
    exact key_unique_aux n m k l hk hl (List.append_inj_left' h rfl)

theorem isKey_iff (env : Env) (name k : Str) : IsKey env name k ↔ normalise env name = k := by
  constructor
  · rintro ⟨n, h, hk⟩
    obtain ⟨m, h2, h3⟩ := isKey_normalise env name
    exact key_unique_aux m n _ _ h3 hk (h2.symm.trans h)
  · rintro rfl
    exact isKey_normalise env name

theorem sameName_iff (env : Env) (a b : Str) :
    SameName env a b ↔ normalise env a = normalise env b := by
  constructor
  · rintro ⟨k, h1, h2⟩
    rw [(isKey_iff _ _ _).1 h1, (isKey_iff _ _ _).1 h2]
  · intro h
    exact ⟨_, isKey_normalise _ _, h ▸ isKey_normalise _ _⟩

theorem fields_ascii (c : Cls) : ∀ f ∈ fields c, ∀ ch ∈ f.name, ch.toNat < 128 := by
  cases c <;> decide +kernel

theorem normalise_ascii (env : Env) (s : Str) (h : ∀ ch ∈ s, ch.toNat < 128) :
    normalise env s = normalise Env.ascii s := by
  unfold normalise
  rw [env.ascii_lower s h, Env.ascii.ascii_lower s h]

theorem normalise_field (env : Env) (c : Cls) (f : Field) (h : f ∈ fields c) :
    normalise env f.name = normalise Env.ascii f.name :=
  normalise_ascii env _ (fields_ascii c f h)

theorem fields_nodup_ascii (c : Cls) : ((fields c).map fun f => normalise Env.ascii f.name).Nodup := by
  cases c <;> decide +kernel

theorem fields_nodup (env : Env) (c : Cls) : ((fields c).map fun f => normalise env f.name).Nodup := by
  rw [List.map_congr_left (fun f h => normalise_field env c f h)]
  exact fields_nodup_ascii c

theorem inj_of_nodup_map {α β : Type} (g : α → β) : ∀ (l : List α), (l.map g).Nodup →
    ∀ x ∈ l, ∀ y ∈ l, g x = g y → x = y
  | [], _, x, hx, _, _, _ => by cases hx
  | a :: l, hn, x, hx, y, hy, e => by
    rw [List.map_cons, List.nodup_cons] at hn
    rcases List.mem_cons.1 hx with rfl | hx' <;> rcases List.mem_cons.1 hy with rfl | hy'
    · rfl
    · exact absurd (e ▸ List.mem_map_of_mem hy') hn.1
    · exact absurd (e ▸ List.mem_map_of_mem hx') hn.1
    · exact inj_of_nodup_map g l hn.2 x hx' y hy' e

theorem field_unique (env : Env) (c : Cls) (f g : Field) (hf : f ∈ fields c) (hg : g ∈ fields c)
    (h : normalise env f.name = normalise env g.name) : f = g :=
  inj_of_nodup_map _ _ (fields_nodup env c) f hf g hg h

theorem field_name_unique (c : Cls) (f g : Field) (hf : f ∈ fields c) (hg : g ∈ fields c)
    (h : f.name = g.name) : f = g :=
  field_unique Env.ascii c f g hf hg (by rw [h])

theorem lookup_some (env : Env) (c : Cls) (k : Str) (f : Field) :
    lookup env c k = some f ↔ f ∈ fields c ∧ normalise env f.name = k := by
  constructor
  · intro h
    exact ⟨List.mem_of_find?_eq_some h, by simpa using List.find?_some h⟩
  · rintro ⟨hf, e⟩
    cases hl : lookup env c k with
    | none =>
      have := List.find?_eq_none.1 hl f hf
      simp [e] at this
    | some g =>
      have hg : g ∈ fields c := List.mem_of_find?_eq_some hl
      have eg : normalise env g.name = k := by simpa using List.find?_some hl
      rw [field_unique env c g f hg hf (eg.trans e.symm)]

theorem lookup_none (env : Env) (c : Cls) (k : Str) :
    lookup env c k = none ↔ ∀ f ∈ fields c, normalise env f.name ≠ k := by
  unfold lookup
  rw [List.find?_eq_none]
  simp

/-! ## The attributes -/

/-- The attributes that feed a field. -/
def attrsOf (env : Env) (f : Field) (l : List (Str × Str)) : List (Str × Str) :=
  l.filter fun kv => normalise env kv.1 = normalise env f.name

/-- The children that feed a field. -/
def childrenOf (env : Env) (f : Field) (l : List Elem) : List Elem :=
  l.filter fun e => normalise env e.tag = normalise env f.name

theorem fields_names (c : Cls) (f : Field) (h : f ∈ fields c) (params : List (Str × CVal))
    (hk : params.map (·.1) = (fields c).map (·.name)) : f.name ∈ params.map (·.1) := by
  rw [hk]; exact List.mem_map_of_mem h

theorem getLast?_cons_some {α : Type} (x : α) (l : List α) :
    (x :: l).getLast? = some (l.getLast?.getD x) := by
  rw [List.getLast?_cons]

theorem readAttrs_ok (env : Env) (c : Cls) : ∀ (l : List (Str × Str)) (params params' : List (Str × CVal)),
    params.map (·.1) = (fields c).map (·.name) → readAttrs env c params l = .ok params' →
    params'.map (·.1) = (fields c).map (·.name) ∧
    (∀ f ∈ fields c, ∀ kv ∈ attrsOf env f l, ∃ v, convertAttr env f.type kv.2 = .ok v) ∧
    ∀ f ∈ fields c,
      match (attrsOf env f l).getLast? with
      | none => dictGet params' f.name = dictGet params f.name
      | some kv => ∃ v, convertAttr env f.type kv.2 = .ok v ∧ dictGet params' f.name = some v
  | [], params, params', hk, h => by
    unfold readAttrs at h
    injection h with h
    subst h
    exact ⟨hk, fun f _ kv hkv => by simp [attrsOf] at hkv, fun f _ => by simp [attrsOf]⟩
  | kv :: l, params, params', hk, h => by
    unfold readAttrs readAttr at h
    cases hl : lookup env c (normalise env kv.1) with
    | none =>
      rw [hl] at h
      have hn := (lookup_none _ _ _).1 hl
      have hd : ∀ f ∈ fields c, attrsOf env f (kv :: l) = attrsOf env f l := by
        intro f hf
        unfold attrsOf
        rw [List.filter_cons, if_neg]
        simpa using fun e => hn f hf e.symm
      obtain ⟨h1, h2, h3⟩ := readAttrs_ok env c l params params' hk h
      refine ⟨h1, fun f hf => by rw [hd f hf]; exact h2 f hf, fun f hf => ?_⟩
      rw [hd f hf]
      exact h3 f hf
    | some g =>
      rw [hl] at h
      obtain ⟨hg, eg⟩ := (lookup_some _ _ _ _).1 hl
      cases hc : convertAttr env g.type kv.2 with
      | error e => simp [hc] at h
      | ok v =>
        simp only [hc] at h
        obtain ⟨h1, h2, h3⟩ := readAttrs_ok env c l (dictSet params g.name v) params'
          (by rw [dictSet_keys _ _ _ (fields_names c g hg params hk), hk]) h
        have hd : ∀ f ∈ fields c, attrsOf env f (kv :: l)
            = if f = g then kv :: attrsOf env f l else attrsOf env f l := by
          intro f hf
          unfold attrsOf
          rw [List.filter_cons]
          by_cases e : f = g
          · rw [if_pos e, if_pos]; simp [e, eg]
          · rw [if_neg e, if_neg]
            simp only [decide_eq_true_eq]
            intro e2
            exact e (field_unique env c f g hf hg (e2.symm.trans eg.symm))
        refine ⟨h1, ?_, ?_⟩
        · intro f hf kv' hkv'
          rw [hd f hf] at hkv'
          split at hkv'
          · rename_i e
            rcases List.mem_cons.1 hkv' with rfl | hkv'
            · exact ⟨v, e ▸ hc⟩
            · exact h2 f hf kv' hkv'
          · exact h2 f hf kv' hkv'
        · intro f hf
          have h3' := h3 f hf
          rw [hd f hf]
          by_cases e : f = g
          · rw [if_pos e, getLast?_cons_some]
            cases hL : (attrsOf env f l).getLast? with
            | none =>
              rw [hL] at h3'
              exact ⟨v, e ▸ hc, by rw [h3', dictGet_dictSet, if_pos (by rw [e])]⟩
            | some kv' =>
              rw [hL] at h3'
              exact h3'
          · rw [if_neg e]
            cases hL : (attrsOf env f l).getLast? with
            | none =>
              rw [hL] at h3'
              simp only at h3' ⊢
              rw [h3', dictGet_dictSet, if_neg]
              exact fun e2 => e (field_name_unique c f g hf hg e2.symm)
            | some kv' =>
              rw [hL] at h3'
              exact h3'

theorem readAttrs_total (env : Env) (c : Cls) : ∀ (l : List (Str × Str)) (params : List (Str × CVal)),
    (∀ f ∈ fields c, ∀ kv ∈ attrsOf env f l, ∃ v, convertAttr env f.type kv.2 = .ok v) →
    ∃ params', readAttrs env c params l = .ok params'
  | [], params, _ => ⟨params, rfl⟩
  | kv :: l, params, h => by
    have hl' : ∀ f ∈ fields c, ∀ kv ∈ attrsOf env f l, ∃ v, convertAttr env f.type kv.2 = .ok v := by
      intro f hf kv' hkv'
      apply h f hf kv'
      unfold attrsOf at hkv' ⊢
      rw [List.filter_cons]
      split
      · exact List.mem_cons_of_mem _ hkv'
      · exact hkv'
    unfold readAttrs readAttr
    cases hl : lookup env c (normalise env kv.1) with
    | none => exact readAttrs_total env c l params hl'
    | some g =>
      obtain ⟨hg, eg⟩ := (lookup_some _ _ _ _).1 hl
      obtain ⟨v, hv⟩ := h g hg kv (by
        unfold attrsOf
        rw [List.filter_cons, if_pos (by simp [eg])]
        exact List.mem_cons_self)
      simp only [hv]
      exact readAttrs_total env c l _ hl'

/-- The type of the children of a field. -/
def itemType : FType → CType
  | .one t => t
  | .seq t => t

/-- The parameters in the middle of `from_element`: a `Sequence` field holds a
list and another field does not. -/
def Shaped (c : Cls) (params : List (Str × CVal)) : Prop :=
  params.map (·.1) = (fields c).map (·.name) ∧
  ∀ f ∈ fields c, ∃ v, dictGet params f.name = some v ∧
    match f.type with
    | .seq _ => ∃ l, v = .list l
    | .one _ => ∀ l, v ≠ .list l

theorem convertAttr_one (env : Env) (t : FType) (s : Str) (v : CVal) (h : convertAttr env t s = .ok v) :
    ∃ t', t = .one t' ∧ ∀ l, v ≠ .list l := by
  cases t with
  | seq t => simp [convertAttr] at h
  | one t =>
    refine ⟨t, rfl, ?_⟩
    cases t with
    | text => injection h with h; subst h; intro l; simp
    | int =>
      unfold convertAttr at h
      cases hi : env.uni.intOf s with
      | error e => simp [hi, Except.map] at h
      | ok i => simp [hi, Except.map] at h; subst h; intro l; simp
    | uuid =>
      unfold convertAttr at h
      cases hi : env.uuid s with
      | error e => simp [hi, Except.map] at h
      | ok i => simp [hi, Except.map] at h; subst h; intro l; simp
    | datetime => simp [convertAttr] at h
    | elem c => simp [convertAttr] at h

theorem childValue_not_list (env : Env) (t : CType) (e : Elem) (v : CVal) (h : childValue env t e = .ok v) :
    ∀ l, v ≠ .list l := by
  obtain ⟨tag, attrib, text, children⟩ := e
  cases t with
  | elem c =>
    unfold childValue at h
    split at h
    · simp at h
    · split at h
      · injection h with h; subst h; intro l; simp
      · simp at h
  | text =>
    unfold childValue at h
    cases text <;> (injection h with h; subst h; intro l; simp)
  | int =>
    unfold childValue at h
    cases text with
    | none => simp [convertText] at h
    | some s =>
      cases hi : env.uni.intOf s with
      | error e => simp [convertText, hi, Except.map] at h
      | ok i => simp [convertText, hi, Except.map] at h; subst h; intro l; simp
  | uuid =>
    unfold childValue at h
    cases text with
    | none => simp [convertText] at h
    | some s =>
      cases hi : env.uuid s with
      | error e => simp [convertText, hi, Except.map] at h
      | ok i => simp [convertText, hi, Except.map] at h; subst h; intro l; simp
  | datetime =>
    unfold childValue at h
    cases text with
    | none => simp [convertText] at h
    | some s =>
      cases hi : env.iso s with
      | error e => simp [convertText, hi, Except.map] at h
      | ok i => simp [convertText, hi, Except.map] at h; subst h; intro l; simp

theorem dictGet_init (c : Cls) (f : Field) (h : f ∈ fields c) :
    dictGet (initParams c) f.name = some (new f.type) := by
  apply dictGet_of_mem
  · unfold initParams
    rw [List.map_map]
    have : ((fields c).map fun f => f.name).Nodup := by cases c <;> decide +kernel
    exact this
  · exact List.mem_map.2 ⟨f, h, rfl⟩

theorem initParams_shaped (c : Cls) : Shaped c (initParams c) := by
  refine ⟨by unfold initParams; rw [List.map_map]; rfl, fun f hf => ⟨_, dictGet_init c f hf, ?_⟩⟩
  cases f.type with
  | one t => intro l; simp [new]
  | seq t => exact ⟨[], rfl⟩

theorem readAttrs_shaped (env : Env) (c : Cls) (l : List (Str × Str)) (params : List (Str × CVal))
    (h : readAttrs env c (initParams c) l = .ok params) : Shaped c params := by
  obtain ⟨h1, h2, h3⟩ := readAttrs_ok env c l (initParams c) params (initParams_shaped c).1 h
  refine ⟨h1, fun f hf => ?_⟩
  have h3' := h3 f hf
  cases hL : (attrsOf env f l).getLast? with
  | none =>
    rw [hL] at h3'
    obtain ⟨v, hv, hs⟩ := (initParams_shaped c).2 f hf
    exact ⟨v, h3'.trans hv, hs⟩
  | some kv =>
    rw [hL] at h3'
    obtain ⟨v, hc, hv⟩ := h3'
    obtain ⟨t, et, hn⟩ := convertAttr_one _ _ _ _ hc
    exact ⟨v, hv, by rw [et]; exact hn⟩

theorem childType_shaped (c : Cls) (params : List (Str × CVal)) (h : Shaped c params) (f : Field)
    (hf : f ∈ fields c) : childType f (dictGet params f.name) = .ok (itemType f.type) := by
  obtain ⟨v, hv, hs⟩ := h.2 f hf
  rw [hv]
  unfold childType
  cases ht : f.type with
  | seq t =>
    rw [ht] at hs
    obtain ⟨l, rfl⟩ := hs
    rfl
  | one t =>
    rw [ht] at hs
    cases v <;> first | rfl | exact absurd rfl (hs _)

theorem store_get (params : List (Str × CVal)) (n n' : Str) (v : CVal) (h : n ≠ n') :
    dictGet (store params n v) n' = dictGet params n' := by
  unfold store
  split <;> rw [dictGet_dictSet, if_neg h]

theorem store_shaped (c : Cls) (params : List (Str × CVal)) (h : Shaped c params) (f : Field)
    (hf : f ∈ fields c) (v : CVal) (hv : ∀ l, v ≠ .list l) :
    Shaped c (store params f.name v) ∧
    dictGet (store params f.name v) f.name = some (match f.type, dictGet params f.name with
      | .seq _, some (.list l) => .list (l ++ [v])
      | _, _ => v) := by
  have hk : f.name ∈ params.map (·.1) := fields_names c f hf params h.1
  have hget : dictGet (store params f.name v) f.name = some (match f.type, dictGet params f.name with
      | .seq _, some (.list l) => .list (l ++ [v])
      | _, _ => v) := by
    obtain ⟨w, hw, hs⟩ := h.2 f hf
    unfold store
    rw [hw]
    cases ht : f.type with
    | seq t =>
      rw [ht] at hs
      obtain ⟨l, rfl⟩ := hs
      simp [dictGet_dictSet]
    | one t =>
      rw [ht] at hs
      cases w <;> first | exact absurd rfl (hs _) | simp [dictGet_dictSet]
  refine ⟨⟨?_, fun g hg => ?_⟩, hget⟩
  · unfold store
    split <;> rw [dictSet_keys _ _ _ hk, h.1]
  · by_cases e : g = f
    · subst e
      refine ⟨_, hget, ?_⟩
      obtain ⟨w, hw, hs⟩ := h.2 g hg
      rw [hw]
      cases ht : g.type with
      | seq t =>
        rw [ht] at hs
        obtain ⟨l, rfl⟩ := hs
        exact ⟨_, rfl⟩
      | one t => exact hv
    · rw [store_get _ _ _ _ fun e2 => e (field_name_unique c g f hg hf e2.symm)]
      exact h.2 g hg

/-- What the children do to a field that holds `w`. -/
def Fed (env : Env) (f : Field) (w : CVal) (es : List Elem) (w' : CVal) : Prop :=
  match f.type with
  | .seq t => ∀ l, w = .list l → ∃ vs, w' = .list (l ++ vs) ∧ es.map (childValue env t) = vs.map .ok
  | .one t => match es.getLast? with
    | none => w' = w
    | some e => childValue env t e = .ok w'

theorem readChildren_ok (env : Env) (c : Cls) : ∀ (es : List Elem) (params params' : List (Str × CVal)),
    Shaped c params → readChildren env c params es = .ok params' →
    Shaped c params' ∧
    (∀ f ∈ fields c, ∀ e ∈ childrenOf env f es, ∃ v, childValue env (itemType f.type) e = .ok v) ∧
    ∀ f ∈ fields c, ∀ w, dictGet params f.name = some w →
      ∃ w', dictGet params' f.name = some w' ∧ Fed env f w (childrenOf env f es) w'
  | [], params, params', hs, h => by
    unfold readChildren at h
    injection h with h
    subst h
    refine ⟨hs, fun f _ e he => by simp [childrenOf] at he, fun f _ w hw => ⟨w, hw, ?_⟩⟩
    unfold Fed
    cases f.type with
    | seq t => rintro l rfl; exact ⟨[], by simp, by simp [childrenOf]⟩
    | one t => simp [childrenOf]
  | e :: es, params, params', hs, h => by
    unfold readChildren at h
    cases hl : lookup env c (normalise env e.tag) with
    | none =>
      rw [hl] at h
      have hn := (lookup_none _ _ _).1 hl
      have hd : ∀ f ∈ fields c, childrenOf env f (e :: es) = childrenOf env f es := by
        intro f hf
        unfold childrenOf
        rw [List.filter_cons, if_neg]
        simpa using fun e => hn f hf e.symm
      obtain ⟨h1, h2, h3⟩ := readChildren_ok env c es params params' hs h
      refine ⟨h1, fun f hf => by rw [hd f hf]; exact h2 f hf, fun f hf => ?_⟩
      rw [hd f hf]
      exact h3 f hf
    | some g =>
      obtain ⟨hg, eg⟩ := (lookup_some _ _ _ _).1 hl
      simp only [hl, childType_shaped c params hs g hg] at h
      cases hc : childValue env (itemType g.type) e with
      | error err => simp [hc] at h
      | ok v =>
        simp only [hc] at h
        obtain ⟨hs', hget⟩ := store_shaped c params hs g hg v (childValue_not_list _ _ _ _ hc)
        obtain ⟨h1, h2, h3⟩ := readChildren_ok env c es _ params' hs' h
        have hd : ∀ f ∈ fields c, childrenOf env f (e :: es)
            = if f = g then e :: childrenOf env f es else childrenOf env f es := by
          intro f hf
          unfold childrenOf
          rw [List.filter_cons]
          by_cases h : f = g
          · rw [if_pos h, if_pos]; simp [h, eg]
          · rw [if_neg h, if_neg]
            simp only [decide_eq_true_eq]
            intro e2
            exact h (field_unique env c f g hf hg (e2.symm.trans eg.symm))
        refine ⟨h1, ?_, ?_⟩
        · intro f hf e' he'
          rw [hd f hf] at he'
          split at he'
          · rename_i ef
            rcases List.mem_cons.1 he' with rfl | he'
            · exact ⟨v, ef ▸ hc⟩
            · exact h2 f hf e' he'
          · exact h2 f hf e' he'
        · intro f hf w hw
          rw [hd f hf]
          by_cases ef : f = g
          · subst ef
            rw [if_pos rfl]
            obtain ⟨w', hw', hfed⟩ := h3 f hf _ hget
            refine ⟨w', hw', ?_⟩
            rw [hw] at hfed
            unfold Fed at hfed ⊢
            cases ht : f.type with
            | seq t =>
              rw [ht] at hfed hc
              rintro l rfl
              obtain ⟨vs, e1, e2⟩ := hfed (l ++ [v]) rfl
              refine ⟨v :: vs, by rw [e1]; simp, ?_⟩
              rw [List.map_cons, e2, List.map_cons]
              congr 1
            | one t =>
              rw [ht] at hfed hc
              simp only [getLast?_cons_some] at hfed ⊢
              cases hL : (childrenOf env f es).getLast? with
              | none => rw [hL] at hfed; simp only at hfed; subst hfed; exact hc
              | some e' => rw [hL] at hfed; exact hfed
          · rw [if_neg ef]
            apply h3 f hf w
            rw [store_get _ _ _ _ fun e2 => ef (field_name_unique c f g hf hg e2.symm)]
            exact hw

theorem readChildren_total (env : Env) (c : Cls) : ∀ (es : List Elem) (params : List (Str × CVal)),
    Shaped c params →
    (∀ f ∈ fields c, ∀ e ∈ childrenOf env f es, ∃ v, childValue env (itemType f.type) e = .ok v) →
    ∃ params', readChildren env c params es = .ok params'
  | [], params, _, _ => ⟨params, by unfold readChildren; rfl⟩
  | e :: es, params, hs, h => by
    have h' : ∀ f ∈ fields c, ∀ e ∈ childrenOf env f es,
        ∃ v, childValue env (itemType f.type) e = .ok v := by
      intro f hf e' he'
      apply h f hf e'
      unfold childrenOf at he' ⊢
      rw [List.filter_cons]
      split
      · exact List.mem_cons_of_mem _ he'
      · exact he'
    unfold readChildren
    cases hl : lookup env c (normalise env e.tag) with
    | none => exact readChildren_total env c es params hs h'
    | some g =>
      obtain ⟨hg, eg⟩ := (lookup_some _ _ _ _).1 hl
      obtain ⟨v, hv⟩ := h g hg e (by
        unfold childrenOf
        rw [List.filter_cons, if_pos (by simp [eg])]
        exact List.mem_cons_self)
      simp only [childType_shaped c params hs g hg, hv]
      exact readChildren_total env c es _
        (store_shaped c params hs g hg v (childValue_not_list _ _ _ _ hv)).1 h'

end CBus.Cbz
