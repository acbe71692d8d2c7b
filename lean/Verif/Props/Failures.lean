import Verif.Props.CbzFile
import Verif.Props.DumpFile
import Verif.Props.Number

/-! # C97: what is raised for a project file with which something is wrong -/

namespace CBus.Props
open CBus CBus.Cbz CBus.Spec CBus.Spec.Cbz

/-! ## Attributes and texts -/

theorem intOf_map (env : Env) (s : Str) :
    (∀ w, (env.uni.intOf s).map CVal.int = .ok w ↔ ∃ i, DecimalText env.uni s i ∧ w = .int i) ∧
    (∀ e, (env.uni.intOf s).map CVal.int = .error e ↔ (∀ i, ¬ DecimalText env.uni s i) ∧ e = .valueError) := by
  obtain ⟨h1, h2⟩ := C96_decimal env.uni s
  by_cases hd : ∃ i, DecimalText env.uni s i
  · obtain ⟨i, hi⟩ := hd
    have hi' := (h1 i).2 hi
    have uniq : ∀ j, DecimalText env.uni s j → j = i := by
      intro j hj
      have := (h1 j).2 hj
      rw [hi'] at this
      injection this with this
      exact this.symm
    rw [hi']
    refine ⟨fun w => ⟨fun h => ?_, ?_⟩, fun e => ⟨fun h => (nomatch h), fun h => absurd hi (h.1 i)⟩⟩
    · injection h with h
      exact ⟨i, hi, h.symm⟩
    · rintro ⟨j, hj, rfl⟩
      rw [uniq j hj]
      rfl
  · have hn : ∀ i, ¬ DecimalText env.uni s i := fun i hi => hd ⟨i, hi⟩
    rw [h2 hn]
    refine ⟨fun w => ⟨fun h => (nomatch h), fun ⟨i, hi, _⟩ => absurd hi (hn i)⟩, fun e => ⟨fun h => ?_, ?_⟩⟩
    · injection h with h
      exact ⟨hn, h.symm⟩
    · rintro ⟨-, rfl⟩
      rfl

theorem map_ok_iff {α β : Type} (x : Py α) (f : α → β) (w : β) : x.map f = .ok w ↔ ∃ a, x = .ok a ∧ w = f a := by
  cases x with
  | error e => exact ⟨fun h => (nomatch h), fun ⟨_, h, _⟩ => (nomatch h)⟩
  | ok a =>
    constructor
    · intro h
      injection h with h
      exact ⟨a, rfl, h.symm⟩
    · rintro ⟨b, h, rfl⟩
      injection h with h
      rw [h]
      rfl

theorem map_error_iff {α β : Type} (x : Py α) (f : α → β) (e : PyErr) : x.map f = .error e ↔ x = .error e := by
  cases x with
  | error e' =>
    constructor
    · intro h
      injection h with h
      rw [h]
    · intro h
      injection h with h
      rw [h]
      rfl
  | ok a => exact ⟨fun h => (nomatch h), fun h => (nomatch h)⟩

/-- C97: what an attribute is read as, and what is raised if it cannot be read. -/
theorem C97_attribute (env : Env) (t : FType) (s : Str) :
    (∀ w, convertAttr env t s = .ok w ↔ AttrValue env t s w) ∧
    (∀ e, convertAttr env t s = .error e ↔ AttrError env t s e) := by
  have typ : ∀ {t : FType}, convertAttr env t s = .error .typeError → (∀ w, ¬ AttrValue env t s w) →
      (∀ e, AttrError env t s e ↔ e = .typeError) →
      (∀ w, convertAttr env t s = .ok w ↔ AttrValue env t s w) ∧
      (∀ e, convertAttr env t s = .error e ↔ AttrError env t s e) := by
    intro t h h1 h2
    rw [h]
    refine ⟨fun w => ⟨fun h => (nomatch h), fun h => absurd h (h1 w)⟩, fun e => ?_⟩
    rw [h2]
    constructor
    · intro h
      injection h with h
      exact h.symm
    · rintro rfl
      rfl
  cases t with
  | seq t =>
    exact typ rfl (fun w h => nomatch h) fun e => ⟨fun h => by cases h; rfl, fun h => h ▸ .seq t s⟩
  | one t =>
    cases t with
    | text =>
      refine ⟨fun w => ⟨fun h => ?_, fun h => ?_⟩, fun e => ⟨fun h => (nomatch h), fun h => (nomatch h)⟩⟩
      · injection h with h
        exact h ▸ .text s
      · cases h
        rfl
    | int =>
      obtain ⟨h1, h2⟩ := intOf_map env s
      refine ⟨fun w => (h1 w).trans ⟨?_, fun h => ?_⟩, fun e => (h2 e).trans ⟨?_, fun h => ?_⟩⟩
      · rintro ⟨i, hi, rfl⟩
        exact .int s i hi
      · cases h with | int _ i hi => exact ⟨i, hi, rfl⟩
      · rintro ⟨hn, rfl⟩
        exact .int s hn
      · cases h with | int _ hn => exact ⟨hn, rfl⟩
    | uuid =>
      refine ⟨fun w => (map_ok_iff _ _ w).trans ⟨?_, fun h => ?_⟩, fun e => (map_error_iff _ _ e).trans ⟨?_, fun h => ?_⟩⟩
      · rintro ⟨i, hi, rfl⟩
        exact .uuid s i hi
      · cases h with | uuid _ i hi => exact ⟨i, hi, rfl⟩
      · intro h
        exact .uuid s e h
      · cases h with | uuid _ _ h => exact h
    | datetime =>
      exact typ rfl (fun w h => nomatch h) fun e => ⟨fun h => by cases h; rfl, fun h => h ▸ .datetime s⟩
    | elem c =>
      exact typ rfl (fun w h => nomatch h) fun e => ⟨fun h => by cases h; rfl, fun h => h ▸ .elem c s⟩

/-- C97: what the text of an element is read as, and what is raised if it cannot be
read. -/
theorem C97_text (env : Env) (t : CType) (ht : ∀ c, t ≠ .elem c) (s : Option Str) :
    (∀ w, convertText env t s = .ok w ↔ TextValue env t s w) ∧
    (∀ e, convertText env t s = .error e ↔ TextError env t s e) := by
  cases s with
  | none =>
    by_cases hx : t = .text
    · subst hx
      refine ⟨fun w => ⟨fun h => ?_, fun h => ?_⟩, fun e => ⟨fun h => (nomatch h), fun h => ?_⟩⟩
      · injection h with h
        exact h ▸ .missing
      · cases h
        rfl
      · cases h with | missing _ h => simp at h
    · have hm : t = .int ∨ t = .uuid ∨ t = .datetime := by
        cases t with
        | elem c => exact absurd rfl (ht c)
        | _ => simp_all
      have he : convertText env t none = .error .typeError := by
        rcases hm with rfl | rfl | rfl <;> rfl
      rw [he]
      refine ⟨fun w => ⟨fun h => (nomatch h), fun h => ?_⟩, fun e => ⟨fun h => ?_, fun h => ?_⟩⟩
      · cases h
        exact absurd rfl hx
      · injection h with h
        exact h ▸ .missing t hm
      · cases h
        rfl
  | some s =>
    cases t with
    | text =>
      refine ⟨fun w => ⟨fun h => ?_, fun h => ?_⟩, fun e => ⟨fun h => (nomatch h), fun h => (nomatch h)⟩⟩
      · injection h with h
        exact h ▸ .text s
      · cases h
        rfl
    | int =>
      obtain ⟨h1, h2⟩ := intOf_map env s
      refine ⟨fun w => (h1 w).trans ⟨?_, fun h => ?_⟩, fun e => (h2 e).trans ⟨?_, fun h => ?_⟩⟩
      · rintro ⟨i, hi, rfl⟩
        exact .int s i hi
      · cases h with | int _ i hi => exact ⟨i, hi, rfl⟩
      · rintro ⟨hn, rfl⟩
        exact .int s hn
      · cases h with | int _ hn => exact ⟨hn, rfl⟩
    | uuid =>
      refine ⟨fun w => (map_ok_iff _ _ w).trans ⟨?_, fun h => ?_⟩, fun e => (map_error_iff _ _ e).trans ⟨?_, fun h => ?_⟩⟩
      · rintro ⟨i, hi, rfl⟩
        exact .uuid s i hi
      · cases h with | uuid _ i hi => exact ⟨i, hi, rfl⟩
      · intro h
        exact .uuid s e h
      · cases h with | uuid _ _ h => exact h
    | datetime =>
      refine ⟨fun w => (map_ok_iff _ _ w).trans ⟨?_, fun h => ?_⟩, fun e => (map_error_iff _ _ e).trans ⟨?_, fun h => ?_⟩⟩
      · rintro ⟨i, hi, rfl⟩
        exact .datetime s i hi
      · cases h with | datetime _ i hi => exact ⟨i, hi, rfl⟩
      · intro h
        exact .datetime s e h
      · cases h with | datetime _ _ h => exact h
    | elem c => exact absurd rfl (ht c)

/-! ## Elements -/

theorem childValue_text_eq (env : Env) (t : CType) (ht : ∀ c, t ≠ .elem c) (e : Elem) :
    childValue env t e = convertText env t e.text := by
  obtain ⟨tag, attrib, text, children⟩ := e
  cases t with
  | elem c => exact absurd rfl (ht c)
  | _ => unfold childValue; rfl

theorem readAttrs_fine (env : Env) (c : Cls) (l : List (Str × Str)) (h : ∀ x ∈ l, AttrFine env c x)
    (params : List (Str × CVal)) : ∃ params', readAttrs env c params l = .ok params' := by
  induction l generalizing params with
  | nil => exact ⟨params, rfl⟩
  | cons kv l ih =>
    unfold readAttrs readAttr
    cases hl : lookup env c (normalise env kv.1) with
    | none => exact ih (fun x hx => h x (List.mem_cons_of_mem _ hx)) params
    | some f =>
      obtain ⟨hf, hn⟩ := (C71_reached env c kv.1 f).1 hl
      obtain ⟨v, hv⟩ := h kv List.mem_cons_self f hf hn
      simp only [((C97_attribute env f.type kv.2).1 v).2 hv]
      exact ih (fun x hx => h x (List.mem_cons_of_mem _ hx)) _

theorem readAttrs_error (env : Env) (c : Cls) (err : PyErr) : ∀ (l : List (Str × Str)) (params : List (Str × CVal)),
    (readAttrs env c params l = .error err ↔ ∃ pre kv post f, l = pre ++ kv :: post ∧ (∀ x ∈ pre, AttrFine env c x) ∧
      f ∈ fields c ∧ SameName env kv.1 f.name ∧ AttrError env f.type kv.2 err)
  | [], params => by
    refine ⟨fun h => (nomatch h), ?_⟩
    rintro ⟨pre, kv, post, f, h, -⟩
    simp at h
  | kv :: l, params => by
    have uniq : ∀ f g, f ∈ fields c → SameName env kv.1 f.name → g ∈ fields c → SameName env kv.1 g.name → f = g := by
      intro f g hf hn hg hn'
      have h1 := (C71_reached env c kv.1 f).2 ⟨hf, hn⟩
      have h2 := (C71_reached env c kv.1 g).2 ⟨hg, hn'⟩
      rw [h1] at h2
      injection h2
    -- the rest, when nothing is wrong with the first
    have rest : AttrFine env c kv → ∀ params', (readAttrs env c params' l = .error err ↔
        ∃ pre kv' post f, kv :: l = pre ++ kv' :: post ∧ (∀ x ∈ pre, AttrFine env c x) ∧ f ∈ fields c ∧
          SameName env kv'.1 f.name ∧ AttrError env f.type kv'.2 err) := by
      intro hfine params'
      rw [readAttrs_error env c err l params']
      constructor
      · rintro ⟨pre, kv', post, f, rfl, hp, h⟩
        refine ⟨kv :: pre, kv', post, f, rfl, ?_, h⟩
        intro x hx
        rcases List.mem_cons.1 hx with rfl | hx
        · exact hfine
        · exact hp x hx
      · rintro ⟨pre, kv', post, f, h, hp, hf, hn, he⟩
        cases pre with
        | nil =>
          simp only [List.nil_append, List.cons.injEq] at h
          obtain ⟨rfl, rfl⟩ := h
          obtain ⟨v, hv⟩ := hfine f hf hn
          have := ((C97_attribute env f.type kv.2).1 v).2 hv
          rw [((C97_attribute env f.type kv.2).2 err).2 he] at this
          cases this
        | cons x pre =>
          simp only [List.cons_append, List.cons.injEq] at h
          exact ⟨pre, kv', post, f, h.2, fun x hx => hp x (List.mem_cons_of_mem _ hx), hf, hn, he⟩
    unfold readAttrs readAttr
    cases hl : lookup env c (normalise env kv.1) with
    | none =>
      refine rest (fun f hf hn => ?_) params
      rw [(C71_reached env c kv.1 f).2 ⟨hf, hn⟩] at hl
      cases hl
    | some f =>
      obtain ⟨hf, hn⟩ := (C71_reached env c kv.1 f).1 hl
      simp only
      cases hc : convertAttr env f.type kv.2 with
      | ok v =>
        refine rest (fun g hg hn' => ?_) _
        rw [← uniq f g hf hn hg hn']
        exact ⟨v, ((C97_attribute env f.type kv.2).1 v).1 hc⟩
      | error e =>
        simp only
        constructor
        · intro h
          injection h with h
          subst h
          exact ⟨[], kv, l, f, rfl, by simp, hf, hn, ((C97_attribute env f.type kv.2).2 e).1 hc⟩
        · rintro ⟨pre, kv', post, g, h, hp, hg, hn', he⟩
          cases pre with
          | nil =>
            simp only [List.nil_append, List.cons.injEq] at h
            obtain ⟨rfl, rfl⟩ := h
            rw [← uniq f g hf hn hg hn', ← (C97_attribute env f.type kv.2).2, hc] at he
            injection he with he
            rw [he]
          | cons x pre =>
            simp only [List.cons_append, List.cons.injEq] at h
            obtain ⟨rfl, rfl⟩ := h
            obtain ⟨v, hv⟩ := hp kv List.mem_cons_self f hf hn
            rw [((C97_attribute env f.type kv.2).1 v).2 hv] at hc
            cases hc

theorem readChildren_error (env : Env) (c : Cls) (err : PyErr) : ∀ (l : List Elem) (params : List (Str × CVal)),
    Shaped c params →
    (readChildren env c params l = .error err ↔ ∃ pre ch post f, l = pre ++ ch :: post ∧ (∀ x ∈ pre, ChildFine env c x) ∧
      f ∈ fields c ∧ SameName env ch.tag f.name ∧ childValue env (memberType f.type) ch = .error err)
  | [], params, _ => by
    unfold readChildren
    refine ⟨fun h => (nomatch h), ?_⟩
    rintro ⟨pre, kv, post, f, h, -⟩
    simp at h
  | e :: l, params, hs => by
    have mt : ∀ t, memberType t = itemType t := by intro t; cases t <;> rfl
    have uniq : ∀ f g, f ∈ fields c → SameName env e.tag f.name → g ∈ fields c → SameName env e.tag g.name → f = g := by
      intro f g hf hn hg hn'
      have h1 := (C71_reached env c e.tag f).2 ⟨hf, hn⟩
      have h2 := (C71_reached env c e.tag g).2 ⟨hg, hn'⟩
      rw [h1] at h2
      injection h2
    have rest : ChildFine env c e → ∀ params', Shaped c params' → (readChildren env c params' l = .error err ↔
        ∃ pre ch post f, e :: l = pre ++ ch :: post ∧ (∀ x ∈ pre, ChildFine env c x) ∧ f ∈ fields c ∧
          SameName env ch.tag f.name ∧ childValue env (memberType f.type) ch = .error err) := by
      intro hfine params' hs'
      rw [readChildren_error env c err l params' hs']
      constructor
      · rintro ⟨pre, ch, post, f, rfl, hp, h⟩
        refine ⟨e :: pre, ch, post, f, rfl, ?_, h⟩
        intro x hx
        rcases List.mem_cons.1 hx with rfl | hx
        · exact hfine
        · exact hp x hx
      · rintro ⟨pre, ch, post, f, h, hp, hf, hn, he⟩
        cases pre with
        | nil =>
          simp only [List.nil_append, List.cons.injEq] at h
          obtain ⟨rfl, rfl⟩ := h
          obtain ⟨v, hv⟩ := hfine f hf hn
          rw [he] at hv
          cases hv
        | cons x pre =>
          simp only [List.cons_append, List.cons.injEq] at h
          exact ⟨pre, ch, post, f, h.2, fun x hx => hp x (List.mem_cons_of_mem _ hx), hf, hn, he⟩
    unfold readChildren
    cases hl : lookup env c (normalise env e.tag) with
    | none =>
      refine rest (fun f hf hn => ?_) params hs
      rw [(C71_reached env c e.tag f).2 ⟨hf, hn⟩] at hl
      cases hl
    | some f =>
      obtain ⟨hf, hn⟩ := (C71_reached env c e.tag f).1 hl
      simp only [childType_shaped c params hs f hf, ← mt]
      cases hc : childValue env (memberType f.type) e with
      | ok v =>
        refine rest (fun g hg hn' => ?_) _ (store_shaped c params hs f hf v (childValue_not_list env _ e v hc)).1
        rw [← uniq f g hf hn hg hn']
        exact ⟨v, hc⟩
      | error e' =>
        simp only
        constructor
        · intro h
          injection h with h
          subst h
          exact ⟨[], e, l, f, rfl, by simp, hf, hn, hc⟩
        · rintro ⟨pre, ch, post, g, h, hp, hg, hn', he⟩
          cases pre with
          | nil =>
            simp only [List.nil_append, List.cons.injEq] at h
            obtain ⟨rfl, rfl⟩ := h
            rw [← uniq f g hf hn hg hn', hc] at he
            injection he with he
            rw [he]
          | cons x pre =>
            simp only [List.cons_append, List.cons.injEq] at h
            obtain ⟨rfl, rfl⟩ := h
            obtain ⟨v, hv⟩ := hp e List.mem_cons_self f hf hn
            rw [hv] at hc
            cases hc

theorem readAttrs_ok_fine (env : Env) (c : Cls) (l : List (Str × Str)) (params params' : List (Str × CVal))
    (h : readAttrs env c params l = .ok params') : ∀ x ∈ l, AttrFine env c x := by
  induction l generalizing params with
  | nil => simp
  | cons kv l ih =>
    unfold readAttrs at h
    split at h
    · rename_i p hp
      intro x hx
      rcases List.mem_cons.1 hx with rfl | hx
      · intro f hf hn
        unfold readAttr at hp
        rw [(C71_reached env c x.1 f).2 ⟨hf, hn⟩] at hp
        simp only at hp
        split at hp
        · rename_i v hv
          exact ⟨v, ((C97_attribute env f.type x.2).1 v).1 hv⟩
        · cases hp
      · exact ih p h x hx
    · cases h

theorem elementError_sound (env : Env) {t : CType} {e : Elem} {err : PyErr} (h : ElementError env t e err) :
    childValue env t e = .error err := by
  induction h with
  | attr c tag pre kv post text children f err hp hf hn he =>
    unfold childValue
    rw [(readAttrs_error env c err _ _).2 ⟨pre, kv, post, f, rfl, hp, hf, hn, he⟩]
  | child c tag attrib text pre ch post f err ha hp hf hn he ih =>
    unfold childValue
    obtain ⟨params, hps⟩ := readAttrs_fine env c attrib ha (initParams c)
    simp only [hps]
    rw [(readChildren_error env c err _ params (readAttrs_shaped env c attrib params hps)).2
      ⟨pre, ch, post, f, rfl, hp, hf, hn, ih⟩]
  | text t e err ht he =>
    rw [childValue_text_eq env t ht e]
    exact ((C97_text env t ht e.text).2 err).2 he

theorem elementError_complete (env : Env) (err : PyErr) : ∀ (e : Elem) (t : CType), childValue env t e = .error err →
    ElementError env t e err
  | .mk tag attrib text children, t, h => by
    by_cases ht : ∀ c, t ≠ .elem c
    · rw [childValue_text_eq env t ht] at h
      exact .text t _ err ht (((C97_text env t ht _).2 err).1 h)
    · simp only [ne_eq, Classical.not_forall, Classical.not_not] at ht
      obtain ⟨c, rfl⟩ := ht
      unfold childValue at h
      cases ha : readAttrs env c (initParams c) attrib with
      | error e' =>
        simp only [ha] at h
        injection h with h
        subst h
        obtain ⟨pre, kv, post, f, rfl, hp, hf, hn, he⟩ := (readAttrs_error env c e' _ _).1 ha
        exact .attr c tag pre kv post text children f e' hp hf hn he
      | ok params =>
        simp only [ha] at h
        cases hc : readChildren env c params children with
        | ok params' => simp only [hc] at h; cases h
        | error e' =>
          simp only [hc] at h
          injection h with h
          obtain ⟨pre, ch, post, f, hl, hp, hf, hn, he⟩ :=
            (readChildren_error env c e' _ params (readAttrs_shaped env c attrib params ha)).1 hc
          rw [h] at he
          have := elementError_complete env err ch (memberType f.type) he
          subst hl
          exact .child c tag attrib text pre ch post f err (readAttrs_ok_fine env c attrib _ params ha) hp hf hn this
termination_by e => sizeOf e
decreasing_by
  have : sizeOf ch < sizeOf children := List.sizeOf_lt_of_mem (by rw [hl]; simp)
  simp only [Elem.mk.sizeOf_spec]
  omega

/-- C97: what is raised for an element is the error of the first attribute or else the
first child, at any depth, with which something is wrong. -/
theorem C97_element (env : Env) (c : Cls) (e : Elem) (err : PyErr) :
    fromElement env c e = .error err ↔ ElementError env (.elem c) e err :=
  ⟨elementError_complete env err e (.elem c), elementError_sound env⟩

/-- What was raised. -/
def raised {α : Type} : Py α → Option PyErr
  | .error e => some e
  | .ok _ => none

/-- The address of the second group is no number; a child for an attribute of its own. -/
example : raised (fromElement .ascii .application (.mk "Application".toList [] none
      [groupXml (1, "a".toList), .mk "Group".toList [("Address".toList, "x".toList)] none [],
       .mk "OID".toList [] none []])) = some .valueError := by
  decide +kernel

/-! ## Labels -/

theorem getattr_error {v : CVal} {n : String} {e : PyErr} (h : getattr v n = .error e) : e = .attributeError := by
  unfold getattr at h
  split at h
  · split at h
    · cases h
    · injection h with h
      exact h.symm
  · injection h with h
    exact h.symm

theorem labelGroups_error (env : Env) (e : PyErr) : ∀ (vs : List CVal) (gs : List Group) (labels : List (Option Int × Str)),
    All2 IsGroup vs gs → labelGroups env labels vs = .error e → e = .attributeError
  | [], [], labels, _, h => nomatch h
  | [], _ :: _, _, h, _ => h.elim
  | _ :: _, [], _, h, _ => h.elim
  | v :: vs, g :: gs, labels, ⟨⟨ha, hn⟩, h2⟩, h => by
    unfold labelGroups at h
    simp only [getattr_attr hn, getattr_attr ha, bind, Except.bind, keyOf_optInt] at h
    cases hg : g.name with
    | none =>
      simp only [hg, optStr, stripVal] at h
      injection h with h
      exact h.symm
    | some t =>
      simp only [hg, optStr, stripVal] at h
      repeat' split at h
      all_goals exact labelGroups_error env e vs gs _ h2 h

/-- C97: if the labels of a project that was read cannot be found, because there is no
project, a network has no interface or a group has no name, then `AttributeError` is
raised. -/
theorem C97_labels (env : Env) (e : Elem) (v : CVal) (h : fromElement env .installation e = .ok v) (err : PyErr)
    (hr : readLabels env v = .error err) : err = .attributeError := by
  by_cases hn : ∃ nets, IsInstallation v nets
  · obtain ⟨nets, hn⟩ := hn
    rcases readLabels_eq env v nets hn with ⟨a, gs, -, h2, h3⟩ | ⟨-, h2⟩
    · rw [h3] at hr
      exact labelGroups_error env err gs a.groups [] h2 hr
    · rw [h2] at hr
      cases hr
  · unfold readLabels at hr
    simp only [bind, Except.bind] at hr
    cases hp : getattr v "project" with
    | error e' =>
      simp only [hp] at hr
      injection hr with hr
      exact hr ▸ getattr_error hp
    | ok p =>
      simp only [hp] at hr
      cases hw : getattr p "network" with
      | error e' =>
        simp only [hw] at hr
        injection hr with hr
        exact hr ▸ getattr_error hw
      | ok nv =>
        simp only [hw] at hr
        obtain ⟨w1, h1, k1⟩ := attr_of env .installation e v h "project" (.one (.elem .project)) (by decide)
        have e1 : w1 = p := by
          have := (getattr_attr h1).symm.trans hp
          injection this
        subst e1
        unfold FieldValue at k1
        simp only at k1
        split at k1
        · rename_i ch _
          obtain ⟨w2, h2, k2⟩ := attr_of env .project ch w1 k1 "network" (.seq (.elem .network)) (by decide)
          obtain ⟨vs, rfl, hvs⟩ := seqField env ch _ w2 _ rfl k2
          have e2 : nv = .list vs := by
            have := hw.symm.trans (getattr_attr h2)
            injection this
          subst e2
          simp only [iter] at hr
          have key : ∀ (vs : List CVal) (e' : PyErr), listFilter (fun n => do
              let i ← getattr n "interface"
              let t ← getattr i "interface_type"
              return !eqStr t "bridge".toList) vs = .error e' → e' = .attributeError := by
            intro vs
            induction vs with
            | nil => intro e' h; cases h
            | cons x vs ih =>
              intro e' h
              unfold listFilter at h
              simp only [bind, Except.bind] at h
              cases hx : getattr x "interface" with
              | error err =>
                simp only [hx] at h
                injection h with h
                exact h ▸ getattr_error hx
              | ok i =>
                simp only [hx] at h
                cases hx2 : getattr i "interface_type" with
                | error err =>
                  simp only [hx2] at h
                  injection h with h
                  exact h ▸ getattr_error hx2
                | ok t =>
                  simp only [hx2, pure, Except.pure] at h
                  split at h
                  · rename_i e'' hf
                    injection h with h
                    exact h ▸ ih e'' hf
                  · cases h
          cases hf : listFilter (fun n => do
              let i ← getattr n "interface"
              let t ← getattr i "interface_type"
              return !eqStr t "bridge".toList) vs with
          | error e' =>
            simp only [bind, Except.bind, pure, Except.pure] at hf hr
            simp only [hf] at hr
            injection hr with hr
            refine hr ▸ key vs e' ?_
            simp only [bind, Except.bind, pure, Except.pure]
            exact hf
          | ok vs' => exact absurd (C69_described env e v w1 vs h h1 h2 (interfaces_of vs vs' hf)) hn
        · split at k1
          · simp [convertAttr] at k1
          · subst k1
            simp [getattr] at hw

/-! ## Dumps -/

open CBus.Spec.Dump (Parts Numbers UnitGroups NumbersError UnitError DumpError IsParam IsUnit)

theorem numbersError_iff (env : Env) (value : Option Str) (e : PyErr) :
    NumbersError env value e ↔ dumpItems env (optStr value) = .error e := by
  cases value with
  | none =>
    simp only [optStr, dumpItems]
    constructor
    · intro h; cases h; rfl
    · intro h
      injection h with h
      exact h ▸ .missing
  | some s =>
    simp only [optStr, dumpItems]
    have key : ∀ l : List Str, listMap (fun c => env.uni.int16 (c.drop 2)) l = .error e ↔
        (∃ w ∈ l, ∀ i, ¬ HexText env.uni (w.drop 2) i) ∧ e = .valueError := by
      intro l
      induction l with
      | nil => exact ⟨fun h => (nomatch h), fun ⟨⟨w, h, _⟩, _⟩ => (nomatch h)⟩
      | cons x l ih =>
        unfold listMap
        simp only [bind, Except.bind, pure, Except.pure]
        obtain ⟨h1, h2⟩ := C96_hexadecimal env.uni (x.drop 2)
        by_cases hx : ∃ i, HexText env.uni (x.drop 2) i
        · obtain ⟨i, hi⟩ := hx
          simp only [(h1 i).2 hi]
          have : (∃ w ∈ x :: l, ∀ i, ¬ HexText env.uni (w.drop 2) i) ↔ ∃ w ∈ l, ∀ i, ¬ HexText env.uni (w.drop 2) i := by
            simp only [List.mem_cons]
            constructor
            · rintro ⟨w, rfl | hw, h⟩
              · exact absurd hi (h i)
              · exact ⟨w, hw, h⟩
            · rintro ⟨w, hw, h⟩
              exact ⟨w, .inr hw, h⟩
          rw [this, ← ih]
          cases listMap (fun c => env.uni.int16 (c.drop 2)) l <;> simp
        · have hn : ∀ i, ¬ HexText env.uni (x.drop 2) i := fun i hi => hx ⟨i, hi⟩
          simp only [h2 hn]
          constructor
          · intro h
            injection h with h
            exact ⟨⟨x, List.mem_cons_self, hn⟩, h.symm⟩
          · rintro ⟨-, rfl⟩
            rfl
    rw [key]
    constructor
    · intro h
      cases h with
      | part _ items w hp hw h =>
        rw [parts_unique _ _ hp]
        exact ⟨⟨w, hw, h⟩, rfl⟩
    · rintro ⟨⟨w, hw, h⟩, rfl⟩
      exact .part s _ w (splitOn_parts s) hw h

theorem unitError_cons (env : Env) (p : Option Str × Option Str) (ps : List (Option Str × Option Str)) (e : PyErr) :
    UnitError env (p :: ps) e ↔
      (p.1 = some "GroupAddress".toList ∧ (NumbersError env p.2 e ∨ (∃ l, Numbers env p.2 l) ∧ UnitError env ps e)) ∨
      (p.1 ≠ some "GroupAddress".toList ∧ UnitError env ps e) := by
  constructor
  · rintro ⟨pre, q, post, h, ⟨l, hl⟩, hq, he⟩
    cases pre with
    | nil =>
      simp only [List.nil_append, List.cons.injEq] at h
      obtain ⟨rfl, rfl⟩ := h
      exact .inl ⟨hq, .inl he⟩
    | cons x pre =>
      simp only [List.cons_append, List.cons.injEq] at h
      obtain ⟨rfl, rfl⟩ := h
      unfold UnitGroups at hl
      rcases hl with ⟨h1, l1, l2, -, h3, h4⟩ | ⟨h1, h2⟩
      · exact .inl ⟨h1, .inr ⟨⟨l1, h3⟩, pre, q, post, rfl, ⟨l2, h4⟩, hq, he⟩⟩
      · exact .inr ⟨h1, pre, q, post, rfl, ⟨l, h2⟩, hq, he⟩
  · rintro (⟨h1, h2 | ⟨⟨l1, h2⟩, pre, q, post, rfl, ⟨l, hl⟩, hq, he⟩⟩ | ⟨h1, pre, q, post, rfl, ⟨l, hl⟩, hq, he⟩)
    · exact ⟨[], p, ps, rfl, ⟨[], rfl⟩, h1, h2⟩
    · refine ⟨p :: pre, q, post, rfl, ⟨l1 ++ l, ?_⟩, hq, he⟩
      unfold UnitGroups
      exact .inl ⟨h1, l1, l, rfl, h2, hl⟩
    · refine ⟨p :: pre, q, post, rfl, ⟨l, ?_⟩, hq, he⟩
      unfold UnitGroups
      exact .inr ⟨h1, hl⟩

theorem dumpChannels_error (env : Env) (e : PyErr) : ∀ (ps : List CVal) (params : List (Option Str × Option Str))
    (ch : List Int), All2 IsParam ps params → (dumpChannels env ch ps = .error e ↔ UnitError env params e)
  | [], [], ch, _ => by
    refine ⟨fun h => (nomatch h), ?_⟩
    rintro ⟨pre, q, post, h, -⟩
    simp at h
  | [], _ :: _, _, h => h.elim
  | _ :: _, [], _, h => h.elim
  | p :: ps, q :: params, ch, ⟨⟨h1, h2⟩, h3⟩ => by
    rw [unitError_cons]
    unfold dumpChannels
    simp only [bind, Except.bind, getattr_attr h1, getattr_attr h2]
    by_cases hq : q.1 = some "GroupAddress".toList
    · rw [if_pos ((eqStr_iff _ _).2 hq)]
      simp only [hq, true_and, ne_eq, not_true, false_and, or_false]
      cases hi : dumpItems env (optStr q.2) with
      | error e' =>
        have hno : ¬ ∃ l, Numbers env q.2 l := by
          rintro ⟨l, hl⟩
          rw [(numbers_iff env q.2 l).1 hl] at hi
          cases hi
        simp only [hno, false_and, or_false, numbersError_iff, hi]
      | ok items =>
        simp only
        rw [dumpChannels_error env e ps params _ h3, numbersError_iff, hi]
        have : ∃ l, Numbers env q.2 l := ⟨items, (numbers_iff env q.2 items).2 hi⟩
        simp [this]
    · rw [if_neg fun h => hq ((eqStr_iff _ _).1 h), dumpChannels_error env e ps params _ h3]
      simp only [hq, false_and, ne_eq, not_false_eq_true, true_and, false_or]

/-- The loops that fill a dictionary raise what is raised for the first item. -/
theorem dumpTable_error {α : Type} (f : CVal → Py JVal) (key : α → Option Int) (R : CVal → α → Prop)
    (hk : ∀ w x, R w x → Attr w "address" (optInt (key x))) (Q : α → Prop) (E : α → Prop) (e : PyErr)
    (hq : ∀ w x, R w x → ((∃ v, f w = .ok v) ↔ Q x)) (he : ∀ w x, R w x → (f w = .error e ↔ E x)) :
    ∀ (ws : List CVal) (xs : List α), All2 R ws xs → ∀ d0,
      (dumpTable f d0 ws = .error e ↔ ∃ pre x post, xs = pre ++ x :: post ∧ (∀ y ∈ pre, Q y) ∧ E x)
  | [], [], _, d0 => by
    refine ⟨fun h => (nomatch h), ?_⟩
    rintro ⟨pre, x, post, h, -⟩
    simp at h
  | [], _ :: _, h, _ => h.elim
  | _ :: _, [], h, _ => h.elim
  | w :: ws, x :: xs, ⟨hr, ha⟩, d0 => by
    unfold dumpTable
    simp only [bind, Except.bind, getattr_attr (hk w x hr), keyOf_optInt]
    cases hf : f w with
    | error e' =>
      have hnq : ¬ Q x := by
        intro h
        obtain ⟨v, hv⟩ := (hq w x hr).2 h
        rw [hf] at hv
        cases hv
      have hE : (Except.error e' : Py JVal) = .error e ↔ E x := hf ▸ he w x hr
      have hE' : e' = e ↔ E x := ⟨fun h => hE.1 (h ▸ rfl), fun h => by injection hE.2 h⟩
      simp only [Except.error.injEq]
      rw [hE']
      constructor
      · intro h
        exact ⟨[], x, xs, rfl, by simp, h⟩
      · rintro ⟨pre, y, post, h, hp, hy⟩
        cases pre with
        | nil =>
          simp only [List.nil_append, List.cons.injEq] at h
          exact h.1 ▸ hy
        | cons z pre =>
          simp only [List.cons_append, List.cons.injEq] at h
          exact absurd (h.1 ▸ hp z List.mem_cons_self) hnq
    | ok o =>
      have hQ : Q x := (hq w x hr).1 ⟨o, hf⟩
      have hnE : ¬ E x := by
        intro h
        have := (he w x hr).2 h
        rw [hf] at this
        cases this
      simp only
      rw [dumpTable_error f key R hk Q E e hq he ws xs ha _]
      constructor
      · rintro ⟨pre, y, post, rfl, hp, hy⟩
        refine ⟨x :: pre, y, post, rfl, ?_, hy⟩
        intro z hz
        rcases List.mem_cons.1 hz with rfl | hz
        · exact hQ
        · exact hp z hz
      · rintro ⟨pre, y, post, h, hp, hy⟩
        cases pre with
        | nil =>
          simp only [List.nil_append, List.cons.injEq] at h
          exact absurd (h.1 ▸ hy) hnE
        | cons z pre =>
          simp only [List.cons_append, List.cons.injEq] at h
          exact ⟨pre, y, post, h.2, fun z hz => hp z (List.mem_cons_of_mem _ hz), hy⟩

theorem dumpUnit_error (env : Env) (v : CVal) (u : Spec.Dump.Unit) (h : IsUnit v u) (e : PyErr) :
    dumpUnit env v = .error e ↔ UnitError env u.params e := by
  obtain ⟨h1, h2, h3, h4, h5, h6, ps, h7, h8⟩ := h
  rw [← dumpChannels_error env e ps _ [] h8]
  unfold dumpUnit
  simp only [bind, Except.bind, pure, Except.pure, jattr_str h2, jattr_int h1, jattr_str h3, jattr_str h4,
    jattr_str h5, jattr_str h6, getattr_attr h7, iter]
  cases dumpChannels env [] ps <;> simp

theorem dumpNet_error (env : Env) (v : CVal) (n : Spec.Dump.Net) (h : Spec.Dump.IsNet v n) (e : PyErr) :
    dumpNet env v = .error e ↔ ∃ upre u upost, n.units = upre ++ u :: upost ∧
      (∀ x ∈ upre, ∃ l, UnitGroups env x.params l) ∧ UnitError env u.params e := by
  obtain ⟨h1, h2, h3, ⟨as, h4, h5⟩, us, h6, h7⟩ := h
  have ha : ∃ d, dumpTable dumpApp [] as = .ok d :=
    (dumpTable_ok dumpApp Spec.Dump.App.address Spec.Dump.IsApp (fun w x h => h.1) (fun _ => True)
      (fun w x hw => ⟨fun _ => trivial, fun _ => by obtain ⟨j, hj, -⟩ := dumpApp_json w x hw; exact ⟨j, hj⟩⟩)
      as _ h5 []).2 fun _ _ => trivial
  obtain ⟨d, hd⟩ := ha
  rw [← dumpTable_error (dumpUnit env) Spec.Dump.Unit.address IsUnit (fun w x h => h.1)
    (fun u => ∃ l, UnitGroups env u.params l) (fun u => UnitError env u.params e) e
    (fun w x hw => (dumpUnit_json env w x hw).2) (fun w x hw => dumpUnit_error env w x hw e) us _ h7 []]
  unfold dumpNet
  simp only [bind, Except.bind, pure, Except.pure, jattr_str h2, jattr_int h1, jattr_int h3, getattr_attr h4,
    getattr_attr h6, iter, hd]
  cases dumpTable (dumpUnit env) [] us <;> simp

/-- C97: a project that cannot be dumped raises the error of its first unit with which
something is wrong: `AttributeError` for a parameter `GroupAddress` without a value,
`ValueError` for one with a part that is no hexadecimal number. (Without a project it is
`AttributeError`, see C78.) -/
theorem C97_dump (env : Env) (v : CVal) (nets : List Spec.Dump.Net) (h : Spec.Dump.IsInstallation v nets) (e : PyErr) :
    dump env v = .error e ↔ DumpError env nets e := by
  obtain ⟨p, ns, h1, h2, h3⟩ := h
  have hn := dumpTable_error (dumpNet env) Spec.Dump.Net.address Spec.Dump.IsNet (fun w x h => h.1)
    (fun n => ∀ u ∈ n.units, ∃ l, UnitGroups env u.params l) _ e (fun w x hw => (dumpNet_json env w x hw).2)
    (fun w x hw => dumpNet_error env w x hw e) ns _ h3 []
  have : dump env v = .error e ↔ dumpTable (dumpNet env) [] ns = .error e := by
    unfold dump
    simp only [bind, Except.bind, pure, Except.pure, getattr_attr h1, getattr_attr h2, iter]
    cases dumpTable (dumpNet env) [] ns <;> simp
  rw [this, hn]
  constructor
  · rintro ⟨npre, n, npost, k1, k2, upre, u, upost, k3, k4, k5⟩
    exact ⟨npre, n, npost, upre, u, upost, k1, k3, k2, k4, k5⟩
  · rintro ⟨npre, n, npost, upre, u, upost, k1, k3, k2, k4, k5⟩
    exact ⟨npre, n, npost, k1, k2, upre, u, upost, k3, k4, k5⟩

example : UnitError .ascii [(some "GroupAddress".toList, some "0x22".toList), (some "Other".toList, none),
      (some "GroupAddress".toList, none), (some "GroupAddress".toList, some "x".toList)] .attributeError := by
  refine ⟨_, (some "GroupAddress".toList, none), _, rfl (a := [_, _] ++ _), ⟨[34], ?_⟩, rfl, .missing⟩
  unfold UnitGroups
  refine .inl ⟨rfl, [34], [], rfl, (numbers_iff _ _ _).2 (by decide +kernel), ?_⟩
  unfold UnitGroups
  exact .inr ⟨by decide, rfl⟩

end CBus.Props
