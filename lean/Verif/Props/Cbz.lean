import Verif.Lemmas.Cbz
import Verif.Lemmas.Text

/-! # C69, C70, C71, C75, C76: project files -/

namespace CBus.Props
open CBus CBus.Cbz CBus.Spec CBus.Spec.Cbz

/-! ## C71 -/

/-- C71: no two fields of a class have the same name up to letter case, underscores
and final letters `s`. -/
theorem C71_distinct (env : Env) (c : Cls) (i j : Nat) (f g : Field) (hf : (fields c)[i]? = some f)
    (hg : (fields c)[j]? = some g) (h : SameName env f.name g.name) : i = j := by
  have hn := fields_nodup env c
  rw [sameName_iff] at h
  have hi : ((fields c).map fun f => normalise env f.name)[i]? = some (normalise env f.name) := by
    rw [List.getElem?_map, hf]; rfl
  have hj : ((fields c).map fun f => normalise env f.name)[j]? = some (normalise env g.name) := by
    rw [List.getElem?_map, hg]; rfl
  have hl : i < ((fields c).map fun f => normalise env f.name).length := by
    rcases Nat.lt_or_ge i ((fields c).map fun f => normalise env f.name).length with h | h
    · exact h
    · rw [List.getElem?_eq_none h] at hi; cases hi
  exact (List.getElem?_inj hl hn).1 (by rw [hi, hj, h])

/-- C71: so an attribute or a child feeds a field iff it has the same name, and it
feeds only one. -/
theorem C71_reached (env : Env) (c : Cls) (name : Str) (f : Field) :
    lookup env c (normalise env name) = some f ↔ f ∈ fields c ∧ SameName env name f.name := by
  rw [lookup_some, sameName_iff]
  constructor
  · rintro ⟨h1, h2⟩; exact ⟨h1, h2.symm⟩
  · rintro ⟨h1, h2⟩; exact ⟨h1, h2.symm⟩

/-- The attributes and children that Toolkit writes for each element of a project,
as found in `/repo/tests/data`, the attribute of the object that is meant, and the
type it has. -/
def toolkitNames : Cls → List (String × String × FType)
  | .installation => [("OID", "oid", .one .uuid), ("DBVersion", "db_version", .one .text),
      ("Version", "version", .one .text), ("Modified", "modified", .one .datetime),
      ("Project", "project", .one (.elem .project)),
      ("InstallationDetail", "installation_detail", .one (.elem .installationDetail))]
  | .installationDetail => [("OID", "oid", .one .uuid), ("SystemLocation", "system_location", .one .text),
      ("HardwarePlatform", "hardware_platform", .one .text), ("Hostname", "hostname", .one .text),
      ("OSName", "os_name", .one .text), ("OSVersion", "os_version", .one .text),
      ("HardwareLocation", "hardware_location", .one .text), ("Installer", "installer", .one (.elem .installer))]
  | .installer => [("OID", "oid", .one .uuid), ("Name", "name", .one .text)]
  | .project => [("OID", "oid", .one .uuid), ("TagName", "tag_name", .one .text), ("Address", "address", .one .text),
      ("Description", "description", .one .text), ("Network", "network", .seq (.elem .network))]
  | .network => [("OID", "oid", .one .uuid), ("TagName", "tag_name", .one .text), ("Address", "address", .one .int),
      ("Description", "description", .one .text), ("NetworkNumber", "network_number", .one .int),
      ("Interface", "interface", .one (.elem .interface)), ("Application", "applications", .seq (.elem .application)),
      ("Unit", "units", .seq (.elem .unit))]
  | .interface => [("OID", "oid", .one .uuid), ("InterfaceType", "interface_type", .one .text),
      ("InterfaceAddress", "interface_address", .one .text)]
  | .application => [("OID", "oid", .one .uuid), ("TagName", "tag_name", .one .text), ("Address", "address", .one .int),
      ("Description", "description", .one .text), ("Group", "groups", .seq (.elem .group))]
  | .group => [("OID", "oid", .one .uuid), ("TagName", "tag_name", .one .text), ("Address", "address", .one .int),
      ("Description", "description", .one .text), ("Level", "levels", .seq (.elem .level))]
  | .level => [("OID", "oid", .one .uuid), ("TagName", "tag_name", .one .text), ("Address", "address", .one .int),
      ("Description", "description", .one .text), ("Value", "value", .one .int)]
  | .unit => [("OID", "oid", .one .uuid), ("TagName", "tag_name", .one .text), ("Address", "address", .one .int),
      ("Description", "description", .one .text), ("UnitType", "unit_type", .one .text),
      ("UnitName", "unit_name", .one .text), ("SerialNumber", "serial_number", .one .text),
      ("FirmwareVersion", "firmware_version", .one .text), ("CatalogNumber", "catalog_number", .one .text),
      ("PP", "pp", .seq (.elem .pp))]
  | .pp => [("Name", "name", .one .text), ("Value", "value", .one .text)]

/-- C71: every name that Toolkit writes reaches the attribute that is meant, with its
type, and every attribute of a class is reached in this way. -/
theorem C71_toolkit (env : Env) (c : Cls) :
    (∀ x ∈ toolkitNames c, lookup env c (normalise env x.1.toList) = some ⟨x.2.1.toList, x.2.2⟩) ∧
    ∀ f ∈ fields c, ∃ x ∈ toolkitNames c, f = ⟨x.2.1.toList, x.2.2⟩ := by
  have key : (∀ x ∈ toolkitNames c, lookup .ascii c (normalise .ascii x.1.toList) = some ⟨x.2.1.toList, x.2.2⟩ ∧
        ∀ ch ∈ x.1.toList, ch.toNat < 128) ∧
      ∀ f ∈ fields c, ∃ x ∈ toolkitNames c, f = ⟨x.2.1.toList, x.2.2⟩ := by
    cases c <;> decide +kernel
  refine ⟨fun x hx => ?_, key.2⟩
  obtain ⟨h1, h2⟩ := key.1 x hx
  rw [C71_reached] at h1 ⊢
  refine ⟨h1.1, ?_⟩
  rw [sameName_iff] at h1 ⊢
  rw [normalise_ascii env _ h2, h1.2, ← normalise_ascii env _ (fields_ascii c _ h1.1)]

/-- `<Applications>`, `<Application>` and `application_` all feed
`Network.applications`. -/
example : (fields .network)[6]? = some ⟨"applications".toList, .seq (.elem .application)⟩ ∧
    lookup .ascii .network (normalise .ascii "Application".toList) = (fields .network)[6]? ∧
    lookup .ascii .network (normalise .ascii "Applications".toList) = (fields .network)[6]? ∧
    lookup .ascii .network (normalise .ascii "application_".toList) = (fields .network)[6]? ∧
    lookup .ascii .network (normalise .ascii "App".toList) = none := by decide +kernel

/-! ## C76 -/

theorem named_attrs (env : Env) (f : Field) (l : List (Str × Str)) :
    named env Prod.fst f l = attrsOf env f l := by
  unfold named attrsOf
  apply List.filter_congr
  intro x _
  simp [sameName_iff]

theorem named_children (env : Env) (f : Field) (l : List Elem) :
    named env Elem.tag f l = childrenOf env f l := by
  unfold named childrenOf
  apply List.filter_congr
  intro x _
  simp [sameName_iff]

/-- C76: the object read from an element has the fields of its class, each with the
value of the children or attributes of its name. -/
theorem C76_fields (env : Env) (c : Cls) (e : Elem) (v : CVal) (h : fromElement env c e = .ok v) :
    ∃ attrs, v = .obj c attrs ∧ attrs.map (·.1) = (fields c).map (·.name) ∧
      ∀ f ∈ fields c, ∃ w, dictGet attrs f.name = some w ∧ FieldValue env e f w := by
  obtain ⟨tag, attrib, text, children⟩ := e
  unfold fromElement childValue at h
  cases ha : readAttrs env c (initParams c) attrib with
  | error err => simp [ha] at h
  | ok params =>
    simp only [ha] at h
    cases hc : readChildren env c params children with
    | error err => simp [hc] at h
    | ok params' =>
      simp only [hc] at h
      injection h with h
      subst h
      obtain ⟨-, -, h3⟩ := readAttrs_ok env c attrib _ params (initParams_shaped c).1 ha
      have hs := readAttrs_shaped env c attrib params ha
      obtain ⟨k1, -, k3⟩ := readChildren_ok env c children params params' hs hc
      refine ⟨params', rfl, k1.1, fun f hf => ?_⟩
      obtain ⟨w, hw, hsh⟩ := hs.2 f hf
      obtain ⟨w', hw', hfed⟩ := k3 f hf w hw
      refine ⟨w', hw', ?_⟩
      have h3' := h3 f hf
      unfold FieldValue
      unfold Fed at hfed
      simp only [Elem.children, Elem.attrib, named_attrs, named_children]
      cases ht : f.type with
      | seq t =>
        rw [ht] at hfed
        have hw0 : w = .list [] := by
          cases hL : (attrsOf env f attrib).getLast? with
          | none =>
            rw [hL] at h3'
            simp only [hw, dictGet_init c f hf, ht] at h3'
            exact Option.some.inj h3'
          | some kv =>
            rw [hL] at h3'
            obtain ⟨v, e1, -⟩ := h3'
            obtain ⟨t', e2, -⟩ := convertAttr_one _ _ _ _ e1
            rw [ht] at e2
            cases e2
        obtain ⟨vs, e1, e2⟩ := hfed [] hw0
        exact ⟨vs, by simpa using e1, e2⟩
      | one t =>
        rw [ht] at hfed
        simp only at hfed ⊢
        cases hL : (childrenOf env f children).getLast? with
        | some ch => rw [hL] at hfed; exact hfed
        | none =>
          rw [hL] at hfed
          simp only at hfed ⊢
          subst hfed
          cases hA : (attrsOf env f attrib).getLast? with
          | none =>
            rw [hA] at h3'
            simp only [hw, dictGet_init c f hf, ht, new] at h3'
            exact Option.some.inj h3'
          | some kv =>
            rw [hA] at h3'
            obtain ⟨v, e1, e2⟩ := h3'
            rw [hw] at e2
            injection e2 with e2
            subst e2
            rw [ht] at e1
            exact e1

/-- C76: an element can be read iff every attribute and every child with the name of
a field can be converted to the type of the field; everything else is ignored. -/
theorem C76_readable (env : Env) (c : Cls) (e : Elem) :
    (∃ v, fromElement env c e = .ok v) ↔
      ∀ f ∈ fields c,
        (∀ kv ∈ e.attrib, SameName env kv.1 f.name → ∃ v, convertAttr env f.type kv.2 = .ok v) ∧
        (∀ ch ∈ e.children, SameName env ch.tag f.name →
          ∃ v, childValue env (memberType f.type) ch = .ok v) := by
  obtain ⟨tag, attrib, text, children⟩ := e
  simp only [Elem.attrib, Elem.children]
  have mt : ∀ t, memberType t = itemType t := by intro t; cases t <;> rfl
  have ma : ∀ f kv, kv ∈ attrsOf env f attrib ↔ kv ∈ attrib ∧ SameName env kv.1 f.name := by
    intro f kv; unfold attrsOf; rw [List.mem_filter, sameName_iff]; simp
  have mc : ∀ f ch, ch ∈ childrenOf env f children ↔ ch ∈ children ∧ SameName env ch.tag f.name := by
    intro f kv; unfold childrenOf; rw [List.mem_filter, sameName_iff]; simp
  constructor
  · rintro ⟨v, h⟩
    unfold fromElement childValue at h
    cases ha : readAttrs env c (initParams c) attrib with
    | error err => simp [ha] at h
    | ok params =>
      simp only [ha] at h
      cases hc : readChildren env c params children with
      | error err => simp [hc] at h
      | ok params' =>
        obtain ⟨-, h2, -⟩ := readAttrs_ok env c attrib _ params (initParams_shaped c).1 ha
        obtain ⟨-, k2, -⟩ := readChildren_ok env c children params params'
          (readAttrs_shaped env c attrib params ha) hc
        intro f hf
        refine ⟨fun kv hkv hn => h2 f hf kv ((ma f kv).2 ⟨hkv, hn⟩), fun ch hch hn => ?_⟩
        rw [mt]
        exact k2 f hf ch ((mc f ch).2 ⟨hch, hn⟩)
  · intro h
    obtain ⟨params, ha⟩ := readAttrs_total env c attrib (initParams c) fun f hf kv hkv =>
      (h f hf).1 kv ((ma f kv).1 hkv).1 ((ma f kv).1 hkv).2
    obtain ⟨params', hc⟩ := readChildren_total env c children params
      (readAttrs_shaped env c attrib params ha) fun f hf ch hch => by
        rw [← mt]; exact (h f hf).2 ch ((mc f ch).1 hch).1 ((mc f ch).1 hch).2
    refine ⟨.obj c params', ?_⟩
    unfold fromElement childValue
    simp only [ha, hc]

/-- An element is read with its attribute, its last `TagName`, its number and its
children of both spellings; the comment is ignored. -/
example : fromElement .ascii .group (.mk "x".toList [("Address".toList, "7".toList)] none
      [.mk "TagName".toList [] (some "a".toList) [], .mk "Comment".toList [] none [],
       .mk "TAG_NAME".toList [] (some "b".toList) [],
       .mk "Level".toList [] none [.mk "Value".toList [] (some "255".toList) []],
       .mk "levels".toList [] none []]) =
    .ok (.obj .group [("oid".toList, .none), ("tag_name".toList, .str "b".toList),
      ("address".toList, .int 7), ("description".toList, .none),
      ("levels".toList, .list [
        .obj .level [("oid".toList, .none), ("tag_name".toList, .none), ("address".toList, .none),
          ("description".toList, .none), ("value".toList, .int 255)],
        .obj .level [("oid".toList, .none), ("tag_name".toList, .none), ("address".toList, .none),
          ("description".toList, .none), ("value".toList, .none)]])]) := by rfl

/-- An address that is not a number cannot be read. -/
example : fromElement .ascii .group (.mk "x".toList [("Address".toList, "x".toList)] none []) =
    .error .valueError := by rfl

/-! ## C69 -/

theorem only_iff {α : Type} (p : α → Prop) [DecidablePred p] (l : List α) (x : α) :
    Only p l x ↔ l.filter (fun y => p y) = [x] := by
  constructor
  · rintro ⟨pre, post, rfl, hx, h1, h2⟩
    rw [List.filter_append, List.filter_cons, if_pos (by simpa using hx),
      List.filter_eq_nil_iff.2 (by simpa using h1), List.filter_eq_nil_iff.2 (by simpa using h2)]
    rfl
  · intro h
    induction l with
    | nil => cases h
    | cons y l ih =>
      rw [List.filter_cons] at h
      split at h
      · rename_i hy
        injection h with h1 h2
        subst h1
        refine ⟨[], l, rfl, by simpa using hy, by simp, ?_⟩
        intro z hz
        have := List.filter_eq_nil_iff.1 h2 z hz
        simpa using this
      · rename_i hy
        obtain ⟨pre, post, e, h1, h2, h3⟩ := ih h
        refine ⟨y :: pre, post, by rw [e]; rfl, h1, ?_, h3⟩
        intro z hz
        rcases List.mem_cons.1 hz with rfl | hz
        · simpa using hy
        · exact h2 z hz

theorem getattr_attr {v w : CVal} {n : String} (h : Attr v n w) : getattr v n = .ok w := by
  obtain ⟨c, attrs, rfl, h⟩ := h
  simp only [getattr, h]

theorem listFilter_all2 {α : Type} (r : CVal → α → Prop) (cond : CVal → Py Bool) (p : α → Bool)
    (h : ∀ v x, r v x → cond v = .ok (p x)) : ∀ (vs : List CVal) (xs : List α), All2 r vs xs →
    ∃ vs', listFilter cond vs = .ok vs' ∧ All2 r vs' (xs.filter p)
  | [], [], _ => ⟨[], rfl, trivial⟩
  | [], _ :: _, h => h.elim
  | _ :: _, [], h => h.elim
  | v :: vs, x :: xs, ⟨h1, h2⟩ => by
    obtain ⟨vs', e1, e2⟩ := listFilter_all2 r cond p h vs xs h2
    unfold listFilter
    rw [h v x h1]
    simp only [bind, Except.bind, e1, pure, Except.pure]
    refine ⟨_, rfl, ?_⟩
    rw [List.filter_cons]
    cases p x
    · exact e2
    · exact ⟨h1, e2⟩

/-- The proper name that a group gives to an address. -/
def properOf (env : Env) (a : Option Int) (g : Group) : Option Str :=
  if g.address = a then
    g.name.bind fun t =>
      if env.uni.strip t = [] ∨ env.uni.strip t = "<Unused>".toList ∨ env.uni.strip t = groupName a
      then none else some (env.uni.strip t)
  else none

/-- The name of the last properly named group with an address. -/
def finalName (env : Env) (a : Option Int) : List Group → Option Str
  | [] => none
  | g :: gs => (finalName env a gs).or (properOf env a g)

theorem finalName_cons (env : Env) (a : Option Int) (g : Group) (gs : List Group) :
    finalName env a (g :: gs) = (finalName env a gs).or (properOf env a g) := rfl

theorem groupName_eq (a : Option Int) : groupName a = ("Group " ++ addressText a).toList := by
  cases a with
  | none => rfl
  | some a =>
    show "Group ".toList ++ intStr a = _
    rw [String.toList_append, intStr_toString]
    rfl

theorem properOf_iff (env : Env) (a : Option Int) (g : Group) (l : Str) :
    properOf env a g = some l ↔ ∃ t, g = ⟨a, some t⟩ ∧ Proper env a t l := by
  obtain ⟨ga, gn⟩ := g
  unfold properOf Proper
  rw [groupName_eq]
  constructor
  · intro h
    split at h
    · rename_i e
      cases gn with
      | none => cases h
      | some t =>
        simp only [Option.bind_some] at h
        split at h
        · cases h
        · rename_i hn
          injection h with h
          subst h
          refine ⟨t, by simpa using e, strip_stripped _ _, fun e => hn (.inl e), fun e => hn (.inr (.inl e)),
            fun e => hn (.inr (.inr e))⟩
    · cases h
  · rintro ⟨t, e, hs, h1, h2, h3⟩
    injection e with e1 e2
    subst e1 e2
    have e := stripped_unique _ (strip_stripped env.uni t) hs
    simp only [if_true, Option.bind_some, e]
    rw [if_neg]
    rintro (h | h | h)
    · exact h1 h
    · exact h2 h
    · exact h3 h

theorem finalName_none (env : Env) (a : Option Int) : ∀ gs : List Group,
    finalName env a gs = none ↔ ∀ t l, (⟨a, some t⟩ : Group) ∈ gs → ¬ Proper env a t l
  | [] => by simp [finalName]
  | g :: gs => by
    unfold finalName
    rw [Option.or_eq_none_iff, finalName_none env a gs]
    constructor
    · rintro ⟨h1, h2⟩ t l hm hp
      rcases List.mem_cons.1 hm with e | hm
      · rw [(properOf_iff env a g l).2 ⟨t, e.symm, hp⟩] at h2; cases h2
      · exact h1 t l hm hp
    · intro h
      refine ⟨fun t l hm => h t l (List.mem_cons_of_mem _ hm), ?_⟩
      cases hp : properOf env a g with
      | none => rfl
      | some l =>
        obtain ⟨t, e, hp⟩ := (properOf_iff env a g l).1 hp
        exact absurd hp (h t l (e ▸ List.mem_cons_self))

theorem lastNamed_iff (env : Env) (a : Option Int) (l : Str) : ∀ gs : List Group,
    LastNamed env gs a l ↔ finalName env a gs = some l
  | [] => by
    constructor
    · rintro ⟨pre, t, post, h, -⟩; simp at h
    · intro h; cases h
  | g :: gs => by
    unfold finalName
    have ih := lastNamed_iff env a l gs
    constructor
    · rintro ⟨pre, t, post, e, hp, hno⟩
      cases pre with
      | nil =>
        injection e with e1 e2
        subst e2
        rw [(finalName_none env a gs).2 hno, (properOf_iff env a g l).2 ⟨t, e1, hp⟩]
        rfl
      | cons x pre =>
        injection e with e1 e2
        rw [ih.1 ⟨pre, t, post, e2, hp, hno⟩]
        rfl
    · intro h
      cases hf : finalName env a gs with
      | some l' =>
        rw [hf] at h
        injection h with h
        subst h
        obtain ⟨pre, t, post, e, hp, hno⟩ := ih.2 hf
        exact ⟨g :: pre, t, post, by rw [e]; rfl, hp, hno⟩
      | none =>
        rw [hf] at h
        obtain ⟨t, e, hp⟩ := (properOf_iff env a g l).1 h
        exact ⟨[], t, gs, by rw [e]; rfl, hp, (finalName_none env a gs).1 hf⟩

theorem keyOf_optInt (a : Option Int) : keyOf (optInt a) = .ok a := by cases a <;> rfl

theorem labelGroups_named (env : Env) : ∀ (vs : List CVal) (gs : List Group) (labels : List (Option Int × Str)),
    All2 IsGroup vs gs →
    ((∀ g ∈ gs, g.name ≠ none) → ∃ labels', labelGroups env labels vs = .ok labels') ∧
    ∀ labels', labelGroups env labels vs = .ok labels' → (∀ g ∈ gs, g.name ≠ none) ∧
      ∀ a, dictGet labels' a = (finalName env a gs).or (dictGet labels a)
  | [], [], labels, _ => by
    refine ⟨fun _ => ⟨labels, rfl⟩, fun labels' h => ?_⟩
    injection h with h
    subst h
    exact ⟨by simp, fun a => by simp [finalName]⟩
  | [], _ :: _, _, h => h.elim
  | _ :: _, [], _, h => h.elim
  | v :: vs, g :: gs, labels, ⟨⟨ha, hn⟩, h2⟩ => by
    obtain ⟨ga, gn⟩ := g
    simp only at ha hn
    unfold labelGroups
    simp only [getattr_attr hn, getattr_attr ha, bind, Except.bind, keyOf_optInt]
    cases gn with
    | none =>
      simp only [optStr, stripVal]
      exact ⟨fun h => absurd rfl (h _ List.mem_cons_self), fun _ h => by cases h⟩
    | some t =>
      simp only [optStr, stripVal]
      have key : ∀ (labels₂ : List (Option Int × Str)),
          (∀ a, dictGet labels₂ a = (properOf env a ⟨ga, some t⟩).or (dictGet labels a)) →
          ((∀ g ∈ (⟨ga, some t⟩ : Group) :: gs, g.name ≠ none) → ∃ labels', labelGroups env labels₂ vs = .ok labels') ∧
          ∀ labels', labelGroups env labels₂ vs = .ok labels' →
            (∀ g ∈ (⟨ga, some t⟩ : Group) :: gs, g.name ≠ none) ∧
            ∀ a, dictGet labels' a = (finalName env a (⟨ga, some t⟩ :: gs)).or (dictGet labels a) := by
        intro labels₂ h₂
        obtain ⟨k1, k2⟩ := labelGroups_named env vs gs labels₂ h2
        refine ⟨fun h => k1 fun g hg => h g (List.mem_cons_of_mem _ hg), fun labels' h => ?_⟩
        obtain ⟨m1, m2⟩ := k2 labels' h
        refine ⟨fun g hg => ?_, fun a => ?_⟩
        · rcases List.mem_cons.1 hg with rfl | hg
          · simp
          · exact m1 g hg
        · rw [m2 a, h₂ a]
          rw [finalName_cons]
          cases finalName env a gs <;> cases properOf env a ⟨ga, some t⟩ <;> rfl
      by_cases h0 : env.uni.strip t = []
      · rw [if_pos h0]
        apply key
        intro a
        unfold properOf
        split
        · rw [Option.bind_some, if_pos (.inl h0)]; rfl
        · rfl
      · rw [if_neg h0]
        by_cases h1 : env.uni.strip t = "<Unused>".toList ∨ env.uni.strip t = groupName ga
        · rw [if_pos h1]
          apply key
          intro a
          unfold properOf
          split
          · rename_i e
            simp only at e
            subst e
            rw [Option.bind_some, if_pos (.inr h1)]
            rfl
          · rfl
        · rw [if_neg h1]
          apply key
          intro a
          rw [dictGet_dictSet]
          unfold properOf
          by_cases e : ga = a
          · subst e
            rw [if_pos rfl, if_pos rfl, Option.bind_some, if_neg]
            · rfl
            · rintro (h | h)
              · exact h0 h
              · exact h1 h
          · rw [if_neg e, if_neg e]
            rfl

instance : DecidablePred Net.Direct := fun _ => inferInstanceAs (Decidable (_ ≠ _))
instance : DecidablePred App.Lighting := fun _ => inferInstanceAs (Decidable (_ = _))

theorem eqStr_optStr (s : Option Str) (t : Str) : eqStr (optStr s) t = decide (s = some t) := by
  cases s with
  | none => rfl
  | some s => rw [Bool.eq_iff_iff]; simp [eqStr, optStr]

theorem eqInt_optInt (s : Option Int) (t : Int) : eqInt (optInt s) t = decide (s = some t) := by
  cases s with
  | none => rfl
  | some s => rw [Bool.eq_iff_iff]; simp [eqInt, optInt]

theorem all2_nil {α : Type} {r : CVal → α → Prop} {vs : List CVal} (h : All2 r vs []) : vs = [] := by
  cases vs with
  | nil => rfl
  | cons _ _ => exact h.elim

theorem all2_one {α : Type} {r : CVal → α → Prop} {vs : List CVal} {x : α} (h : All2 r vs [x]) :
    ∃ v, vs = [v] ∧ r v x := by
  cases vs with
  | nil => exact h.elim
  | cons v vs =>
    obtain ⟨h1, h2⟩ := h
    exact ⟨v, by rw [all2_nil h2], h1⟩

theorem all2_many {α : Type} {r : CVal → α → Prop} {vs : List CVal} {x y : α} {l : List α}
    (h : All2 r vs (x :: y :: l)) : ∃ v w ws, vs = v :: w :: ws := by
  cases vs with
  | nil => exact h.elim
  | cons v vs =>
    cases vs with
    | nil => exact h.2.elim
    | cons w ws => exact ⟨v, w, ws, rfl⟩

/-- Reading the labels comes down to reading the groups of one application. -/
theorem readLabels_eq (env : Env) (v : CVal) (nets : List Net) (h : IsInstallation v nets) :
    (∃ a gs, Labelled nets a ∧ All2 IsGroup gs a.groups ∧ readLabels env v = labelGroups env [] gs) ∨
    ((∀ a, ¬ Labelled nets a) ∧ readLabels env v = .ok []) := by
  obtain ⟨p, ns, h1, h2, h3⟩ := h
  unfold readLabels
  simp only [getattr_attr h1, getattr_attr h2, bind, Except.bind, iter]
  obtain ⟨ns', e1, e2⟩ := listFilter_all2 IsNet
    (fun n => Except.bind (getattr n "interface") fun i => Except.bind (getattr i "interface_type") fun t =>
      .ok (!eqStr t "bridge".toList)) (fun n => decide n.Direct) (by
      rintro n d ⟨⟨i, hi, ht⟩, -⟩
      simp only [getattr_attr hi, getattr_attr ht, Except.bind, eqStr_optStr]
      congr 1
      rw [Bool.eq_iff_iff, Bool.not_eq_true', decide_eq_false_iff_not, decide_eq_true_eq]
      rfl) ns nets h3
  simp only [Except.bind] at e1
  simp only [pure, Except.pure, e1]
  cases hf : nets.filter (fun n => decide n.Direct) with
  | nil =>
    rw [hf] at e2
    rw [all2_nil e2]
    refine .inr ⟨?_, rfl⟩
    rintro a ⟨n, ho, -⟩
    rw [only_iff, hf] at ho
    cases ho
  | cons d rest =>
    cases rest with
    | cons d' rest =>
      rw [hf] at e2
      obtain ⟨v, w, ws, rfl⟩ := all2_many e2
      refine .inr ⟨?_, rfl⟩
      rintro a ⟨n, ho, -⟩
      rw [only_iff, hf] at ho
      cases ho
    | nil =>
      rw [hf] at e2
      obtain ⟨n, rfl, -, as, ha, has⟩ := all2_one e2
      have hd : Only Net.Direct nets d := (only_iff _ _ _).2 hf
      simp only [getattr_attr ha]
      obtain ⟨as', e3, e4⟩ := listFilter_all2 IsApp
        (fun a => Except.bind (getattr a "address") fun t => .ok (eqInt t 0x38)) (fun n => decide n.Lighting) (by
          rintro n d ⟨hi, -⟩
          simp only [getattr_attr hi, Except.bind, eqInt_optInt]
          rfl) as d.apps has
      simp only [Except.bind] at e3
      simp only [e3]
      have uniq : ∀ a, Labelled nets a → Only App.Lighting d.apps a := by
        rintro a ⟨n, ho, hl⟩
        rw [only_iff, hf] at ho
        injection ho with ho
        exact ho ▸ hl
      cases hg : d.apps.filter (fun n => decide n.Lighting) with
      | nil =>
        rw [hg] at e4
        rw [all2_nil e4]
        refine .inr ⟨?_, rfl⟩
        intro a hl
        have := uniq a hl
        rw [only_iff, hg] at this
        cases this
      | cons x rest =>
        cases rest with
        | cons y rest =>
          rw [hg] at e4
          obtain ⟨v, w, ws, rfl⟩ := all2_many e4
          refine .inr ⟨?_, rfl⟩
          intro a hl
          have := uniq a hl
          rw [only_iff, hg] at this
          cases this
        | nil =>
          rw [hg] at e4
          obtain ⟨a, rfl, -, gs, hgs, hgs'⟩ := all2_one e4
          refine .inl ⟨x, gs, ⟨d, hd, (only_iff _ _ _).2 hg⟩, hgs', ?_⟩
          simp only [getattr_attr hgs]

theorem only_unique {α : Type} {p : α → Prop} {l : List α} {x y : α} (h : Only p l x) (h' : Only p l y) :
    x = y := by
  classical
  rw [only_iff] at h h'
  rw [h] at h'
  injection h'

theorem labelled_unique {nets : List Net} {a b : App} (h : Labelled nets a) (h' : Labelled nets b) : a = b := by
  obtain ⟨n, h1, h2⟩ := h
  obtain ⟨m, h3, h4⟩ := h'
  have := only_unique h1 h3
  subst this
  exact only_unique h2 h4

/-- C69: an address has a label iff the only direct network has only one lighting
application and that has a properly named group with the address; the label is the
name of the last such group. -/
theorem C69_labels (env : Env) (v : CVal) (nets : List Net) (h : IsInstallation v nets)
    (labels : List (Option Int × Str)) (hr : readLabels env v = .ok labels) (a : Option Int) (l : Str) :
    dictGet labels a = some l ↔ ∃ app, Labelled nets app ∧ LastNamed env app.groups a l := by
  rcases readLabels_eq env v nets h with ⟨app, gs, h1, h2, h3⟩ | ⟨h1, h2⟩
  · rw [h3] at hr
    have := ((labelGroups_named env gs app.groups [] h2).2 labels hr).2 a
    rw [this, dictGet_nil, Option.or_none]
    constructor
    · intro h; exact ⟨app, h1, (lastNamed_iff _ _ _ _).2 h⟩
    · rintro ⟨app', h', hl⟩
      rw [labelled_unique h1 h']
      exact (lastNamed_iff _ _ _ _).1 hl
  · rw [h2] at hr
    injection hr with hr
    subst hr
    constructor
    · intro h; cases h
    · rintro ⟨app, h', -⟩; exact absurd h' (h1 app)

/-- C69: reading the labels fails only if a group of that application has no name at
all. -/
theorem C69_readable (env : Env) (v : CVal) (nets : List Net) (h : IsInstallation v nets) :
    (∃ labels, readLabels env v = .ok labels) ↔
      ∀ app, Labelled nets app → ∀ g ∈ app.groups, g.name ≠ none := by
  rcases readLabels_eq env v nets h with ⟨app, gs, h1, h2, h3⟩ | ⟨h1, h2⟩
  · rw [h3]
    obtain ⟨k1, k2⟩ := labelGroups_named env gs app.groups [] h2
    constructor
    · rintro ⟨labels, hl⟩ app' h'
      rw [← labelled_unique h1 h']
      exact (k2 labels hl).1
    · intro h; exact k1 (h app h1)
  · constructor
    · rintro - app h'; exact absurd h' (h1 app)
    · intro _; exact ⟨[], h2⟩

/-- C69: labels are never blank, `<Unused>` or `Group n` and have no white space
around them. -/
theorem C69_proper (env : Env) (v : CVal) (nets : List Net) (h : IsInstallation v nets)
    (labels : List (Option Int × Str)) (hr : readLabels env v = .ok labels) (a : Option Int) (l : Str)
    (hl : dictGet labels a = some l) :
    Stripped env.uni.isSpace l l ∧ l ≠ [] ∧ l ≠ "<Unused>".toList ∧ l ≠ ("Group " ++ addressText a).toList := by
  obtain ⟨app, -, pre, t, post, -, ⟨h1, h2, h3, h4⟩, -⟩ := (C69_labels env v nets h labels hr a l).1 hl
  exact ⟨⟨⟨[], [], by simp, by simp, by simp⟩, h1.2.1, h1.2.2⟩, h2, h3, h4⟩

end CBus.Props
