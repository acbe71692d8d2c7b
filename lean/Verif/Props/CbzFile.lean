import Verif.Props.Cbz
import Verif.Props.Discovery

/-! # C69, C70, C75, C77: from the project file to the names of the lights -/

namespace CBus.Props
open CBus CBus.Cbz CBus.Spec CBus.Spec.Cbz

/-! ## Types of the fields -/

theorem convertAttr_text (env : Env) (s : Str) (w : CVal) (h : convertAttr env (.one .text) s = .ok w) :
    w = .str s := by
  injection h with h; exact h.symm

theorem childValue_text (env : Env) (e : Elem) :
    childValue env .text e = .ok (.str (e.text.getD "None".toList)) := by
  obtain ⟨tag, a, t, ch⟩ := e
  cases t <;> rfl

theorem childValue_int (env : Env) (e : Elem) (w : CVal) (h : childValue env .int e = .ok w) :
    ∃ i, w = .int i := by
  obtain ⟨tag, a, t, ch⟩ := e
  unfold childValue at h
  cases t with
  | none => simp [convertText] at h
  | some s =>
    cases hi : env.uni.intOf s with
    | error e => simp [convertText, hi, Except.map] at h
    | ok i => simp [convertText, hi, Except.map] at h; exact ⟨i, h.symm⟩

theorem textField (env : Env) (e : Elem) (f : Field) (w : CVal) (ht : f.type = .one .text)
    (h : FieldValue env e f w) : ∃ s, w = optStr s := by
  unfold FieldValue at h
  rw [ht] at h
  simp only at h
  split at h
  · rename_i ch _
    rw [childValue_text] at h
    injection h with h
    exact ⟨some _, h.symm⟩
  · split at h
    · exact ⟨some _, convertAttr_text env _ w h⟩
    · exact ⟨none, h⟩

theorem intField (env : Env) (e : Elem) (f : Field) (w : CVal) (ht : f.type = .one .int)
    (h : FieldValue env e f w) : ∃ i, w = optInt i := by
  unfold FieldValue at h
  rw [ht] at h
  simp only at h
  split at h
  · obtain ⟨i, rfl⟩ := childValue_int env _ _ h
    exact ⟨some i, rfl⟩
  · split at h
    · rename_i kv _
      unfold convertAttr at h
      cases hi : env.uni.intOf kv.2 with
      | error e => simp [hi, Except.map] at h
      | ok i => simp [hi, Except.map] at h; exact ⟨some i, h.symm⟩
    · exact ⟨none, h⟩

theorem seqField (env : Env) (e : Elem) (f : Field) (w : CVal) (t : CType) (ht : f.type = .seq t)
    (h : FieldValue env e f w) :
    ∃ vs, w = .list vs ∧ ∀ v ∈ vs, ∃ ch ∈ e.children, childValue env t ch = .ok v := by
  unfold FieldValue at h
  rw [ht] at h
  obtain ⟨vs, rfl, h⟩ := h
  refine ⟨vs, rfl, fun v hv => ?_⟩
  have : (.ok v : Py CVal) ∈ (named env Elem.tag f e.children).map (childValue env t) := by
    rw [h]; exact List.mem_map_of_mem hv
  obtain ⟨ch, hch, e⟩ := List.mem_map.1 this
  rw [named_children] at hch
  exact ⟨ch, (List.mem_filter.1 hch).1, e⟩

theorem attr_of (env : Env) (c : Cls) (e : Elem) (v : CVal) (h : fromElement env c e = .ok v) (n : String)
    (t : FType) (hf : ⟨n.toList, t⟩ ∈ fields c) : ∃ w, Attr v n w ∧ FieldValue env e ⟨n.toList, t⟩ w := by
  obtain ⟨attrs, rfl, -, h⟩ := C76_fields env c e v h
  obtain ⟨w, h1, h2⟩ := h _ hf
  exact ⟨w, ⟨c, attrs, rfl, h1⟩, h2⟩

theorem all2_exists {α : Type} {r : CVal → α → Prop} : ∀ (vs : List CVal), (∀ v ∈ vs, ∃ x, r v x) →
    ∃ xs, All2 r vs xs
  | [], _ => ⟨[], trivial⟩
  | v :: vs, h => by
    obtain ⟨x, hx⟩ := h v List.mem_cons_self
    obtain ⟨xs, hxs⟩ := all2_exists vs fun w hw => h w (List.mem_cons_of_mem _ hw)
    exact ⟨x :: xs, hx, hxs⟩

theorem isGroup_of (env : Env) (e : Elem) (v : CVal) (h : fromElement env .group e = .ok v) :
    ∃ g, IsGroup v g := by
  obtain ⟨w1, h1, k1⟩ := attr_of env .group e v h "address" (.one .int) (by decide)
  obtain ⟨w2, h2, k2⟩ := attr_of env .group e v h "tag_name" (.one .text) (by decide)
  obtain ⟨i, rfl⟩ := intField env e _ w1 rfl k1
  obtain ⟨s, rfl⟩ := textField env e _ w2 rfl k2
  exact ⟨⟨i, s⟩, h1, h2⟩

theorem isApp_of (env : Env) (e : Elem) (v : CVal) (h : fromElement env .application e = .ok v) :
    ∃ a, IsApp v a := by
  obtain ⟨w1, h1, k1⟩ := attr_of env .application e v h "address" (.one .int) (by decide)
  obtain ⟨w2, h2, k2⟩ := attr_of env .application e v h "groups" (.seq (.elem .group)) (by decide)
  obtain ⟨i, rfl⟩ := intField env e _ w1 rfl k1
  obtain ⟨vs, rfl, hvs⟩ := seqField env e _ w2 _ rfl k2
  obtain ⟨gs, hgs⟩ := all2_exists (r := IsGroup) vs fun v hv => by
    obtain ⟨ch, -, hc⟩ := hvs v hv
    exact isGroup_of env ch v hc
  exact ⟨⟨i, gs⟩, h1, vs, h2, hgs⟩

/-- The object has a network interface. -/
def HasInterface (v : CVal) : Prop := ∃ i, Attr v "interface" i ∧ i ≠ .none

theorem isNet_of (env : Env) (e : Elem) (v : CVal) (h : fromElement env .network e = .ok v)
    (hi : HasInterface v) : ∃ n, IsNet v n := by
  obtain ⟨w1, h1, k1⟩ := attr_of env .network e v h "interface" (.one (.elem .interface)) (by decide)
  obtain ⟨w2, h2, k2⟩ := attr_of env .network e v h "applications" (.seq (.elem .application)) (by decide)
  obtain ⟨vs, rfl, hvs⟩ := seqField env e _ w2 _ rfl k2
  obtain ⟨as, has⟩ := all2_exists (r := IsApp) vs fun v hv => by
    obtain ⟨ch, -, hc⟩ := hvs v hv
    exact isApp_of env ch v hc
  obtain ⟨i, hi1, hi2⟩ := hi
  have hw : w1 = i := by
    have := (getattr_attr h1).symm.trans (getattr_attr hi1)
    injection this
  subst hw
  unfold FieldValue at k1
  simp only at k1
  split at k1
  · rename_i ch _
    obtain ⟨w3, h3, k3⟩ := attr_of env .interface ch w1 k1 "interface_type" (.one .text) (by decide)
    obtain ⟨s, rfl⟩ := textField env ch _ w3 rfl k3
    exact ⟨⟨s, as⟩, ⟨w1, h1, h3⟩, vs, h2, has⟩
  · split at k1
    · simp [convertAttr] at k1
    · exact absurd k1 hi2

/-- C69: the description by networks, applications and groups fits every file that
can be read, has a project and whose networks have interfaces. -/
theorem C69_described (env : Env) (e : Elem) (v p : CVal) (ns : List CVal)
    (h : fromElement env .installation e = .ok v) (hp : Attr v "project" p)
    (hn : Attr p "network" (.list ns)) (hi : ∀ n ∈ ns, HasInterface n) :
    ∃ nets, IsInstallation v nets := by
  obtain ⟨w1, h1, k1⟩ := attr_of env .installation e v h "project" (.one (.elem .project)) (by decide)
  have hw : w1 = p := by
    have := (getattr_attr h1).symm.trans (getattr_attr hp)
    injection this
  subst hw
  unfold FieldValue at k1
  simp only at k1
  split at k1
  · rename_i ch _
    obtain ⟨w2, h2, k2⟩ := attr_of env .project ch w1 k1 "network" (.seq (.elem .network)) (by decide)
    obtain ⟨vs, rfl, hvs⟩ := seqField env ch _ w2 _ rfl k2
    have hw : vs = ns := by
      have := (getattr_attr h2).symm.trans (getattr_attr hn)
      injection this with this
      injection this
    subst hw
    obtain ⟨nets, hnets⟩ := all2_exists (r := IsNet) vs fun v hv => by
      obtain ⟨ch, -, hc⟩ := hvs v hv
      exact isNet_of env ch v hc (hi v hv)
    exact ⟨nets, w1, vs, hp, hn, hnets⟩
  · split at k1
    · simp [convertAttr] at k1
    · subst k1
      obtain ⟨c, attrs, h, -⟩ := hn
      cases h

theorem attr_getattr {v w : CVal} {n : String} (h : getattr v n = .ok w) : Attr v n w := by
  unfold getattr at h
  split at h
  · split at h
    · injection h with h; subst h; exact ⟨_, _, rfl, by assumption⟩
    · simp at h
  · simp at h

theorem interfaces_of (vs : List CVal) : ∀ vs' : List CVal, listFilter (fun n => do
    let i ← getattr n "interface"
    let t ← getattr i "interface_type"
    return !eqStr t "bridge".toList) vs = .ok vs' → ∀ n ∈ vs, HasInterface n := by
  induction vs with
  | nil => intro _ _ n hn; cases hn
  | cons x vs ih =>
    intro vs' hf n hn
    unfold listFilter at hf
    simp only [bind, Except.bind] at hf
    cases hx : getattr x "interface" with
    | error err => simp [hx] at hf
    | ok i =>
      simp only [hx] at hf
      cases hx2 : getattr i "interface_type" with
      | error err => simp [hx2] at hf
      | ok t =>
        simp only [hx2, pure, Except.pure] at hf
        rcases List.mem_cons.1 hn with rfl | hn
        · refine ⟨i, attr_getattr hx, ?_⟩
          rintro rfl
          simp [getattr] at hx2
        · split at hf
          · cases hf
          · rename_i vs'' hf'
            exact ih vs'' hf' n hn

/-- C69: without a project or an interface the labels cannot be read at all. -/
theorem C69_incomplete (env : Env) (e : Elem) (v : CVal) (h : fromElement env .installation e = .ok v)
    (labels : List (Option Int × Str)) (hr : readLabels env v = .ok labels) :
    ∃ nets, IsInstallation v nets := by
  unfold readLabels at hr
  simp only [bind, Except.bind] at hr
  cases hp : getattr v "project" with
  | error err => simp [hp] at hr
  | ok p =>
    simp only [hp] at hr
    cases hn : getattr p "network" with
    | error err => simp [hn] at hr
    | ok nv =>
      simp only [hn] at hr
      obtain ⟨w1, h1, k1⟩ := attr_of env .installation e v h "project" (.one (.elem .project)) (by decide)
      have hw : w1 = p := by
        have := (getattr_attr h1).symm.trans hp
        injection this
      subst hw
      unfold FieldValue at k1
      simp only at k1
      split at k1
      · rename_i ch _
        obtain ⟨w2, h2, k2⟩ := attr_of env .project ch w1 k1 "network" (.seq (.elem .network)) (by decide)
        obtain ⟨vs, rfl, hvs⟩ := seqField env ch _ w2 _ rfl k2
        have hw : nv = .list vs := by
          have := hn.symm.trans (getattr_attr h2)
          injection this
        subst hw
        simp only [iter] at hr
        refine C69_described env e v w1 vs h h1 h2 ?_
        split at hr
        · cases hr
        · rename_i vs' hf
          exact interfaces_of vs vs' hf
      · split at k1
        · simp [convertAttr] at k1
        · subst k1
          simp [getattr] at hn

/-- C69 for files: whenever the labels can be read from a file, they are those of the
properly named groups of the only lighting application of the only direct network. -/
theorem C69_file (env : Env) (f : OpenFile) (labels : List (Option Int × Str))
    (hr : readCbzLabels env f = some (.ok labels)) :
    ∃ v nets, open' env (.handle f.seekable) f.file = some (.ok v) ∧ IsInstallation v nets ∧ ∀ a l,
      dictGet labels a = some l ↔ ∃ app, Labelled nets app ∧ LastNamed env app.groups a l := by
  unfold readCbzLabels at hr
  cases ho : open' env (.handle f.seekable) f.file with
  | none => rw [ho] at hr; cases hr
  | some r =>
    rw [ho] at hr
    simp only [Option.map_some, Option.some.injEq] at hr
    cases r with
    | error err => cases hr
    | ok v =>
      have hr' : readLabels env v = .ok labels := hr
      have hv : ∃ e, fromElement env .installation e = .ok v := by
        have fr : ∀ root : Py Elem, root.bind (fromElement env .installation) = .ok v →
            ∃ e, fromElement env .installation e = .ok v := by
          intro root h
          cases root with
          | error err => cases h
          | ok e => exact ⟨e, h⟩
        unfold open' at ho
        split at ho
        · injection ho with ho; exact fr _ ho
        · split at ho
          · cases ho
          · split at ho
            · split at ho
              · injection ho with ho; exact fr _ ho
              · cases ho
            · cases ho
      obtain ⟨e, he⟩ := hv
      obtain ⟨nets, hn⟩ := C69_incomplete env e v he labels hr'
      exact ⟨v, nets, rfl, hn, C69_labels env v nets hn labels hr'⟩

/-! ## Reading the files that Toolkit writes -/

theorem lookup_ascii (env : Env) (c : Cls) (tag : Str) (h : ∀ ch ∈ tag, ch.toNat < 128) :
    lookup env c (normalise env tag) = lookup .ascii c (normalise .ascii tag) := by
  rw [normalise_ascii env tag h]
  unfold lookup
  have : ∀ l : List Field, (∀ f ∈ l, f ∈ fields c) →
      l.find? (fun f => normalise env f.name = normalise .ascii tag)
        = l.find? (fun f => normalise .ascii f.name = normalise .ascii tag) := by
    intro l
    induction l with
    | nil => intro _; rfl
    | cons f l ih =>
      intro h
      rw [List.find?_cons, List.find?_cons, normalise_field env c f (h f List.mem_cons_self),
        ih fun g hg => h g (List.mem_cons_of_mem _ hg)]
  exact this _ fun _ h => h

/-- An element without attributes can be read if its children can. -/
theorem readable_of (env : Env) (c : Cls) (e : Elem) (ha : e.attrib = [])
    (h : ∀ ch ∈ e.children, ∀ f, lookup env c (normalise env ch.tag) = some f →
      ∃ v, childValue env (memberType f.type) ch = .ok v) : ∃ v, fromElement env c e = .ok v := by
  apply (C76_readable env c e).2
  intro f hf
  refine ⟨fun kv hkv => ?_, fun ch hch hs => ?_⟩
  · rw [ha] at hkv; cases hkv
  · exact h ch hch f ((C71_reached env c ch.tag f).2 ⟨hf, hs⟩)

/-- The children that feed a field, for names in ASCII. -/
theorem childrenOf_cons (env : Env) (c : Cls) (f : Field) (hf : f ∈ fields c) (e : Elem) (l : List Elem)
    (tag : String) (b : Bool) (he : e.tag = tag.toList) (h : ∀ ch ∈ tag.toList, ch.toNat < 128)
    (hb : decide (normalise .ascii tag.toList = normalise .ascii f.name) = b) :
    childrenOf env f (e :: l) = if b then e :: childrenOf env f l else childrenOf env f l := by
  unfold childrenOf
  rw [List.filter_cons, he, normalise_ascii env _ h, normalise_field env c f hf, hb]

theorem childrenOf_map {α : Type} (env : Env) (c : Cls) (f : Field) (hf : f ∈ fields c) (mk : α → Elem) (tag : Str)
    (ht : ∀ x, (mk x).tag = tag) (b : Bool) (h : ∀ ch ∈ tag, ch.toNat < 128)
    (hb : decide (normalise .ascii tag = normalise .ascii f.name) = b) (l : List α) :
    childrenOf env f (l.map mk) = if b then l.map mk else [] := by
  induction l with
  | nil => cases b <;> rfl
  | cons x l ih =>
    rw [List.map_cons, childrenOf_cons env c f hf _ _ (String.ofList tag) b (by rw [ht]; simp) (by simpa using h) (by simpa using hb), ih]
    cases b <;> rfl

theorem textElem_text (env : Env) (tag : String) (s : Str) :
    childValue env .text (textElem tag s) = .ok (.str (shown s)) := by
  rw [childValue_text]
  have : (textElem tag s).text = if s = [] then none else some s := rfl
  rw [this]
  unfold shown
  split <;> rfl

theorem textElem_int (env : Env) (tag : String) (i : Int) :
    childValue env .int (textElem tag (toString i).toList) = .ok (.int i) := by
  have hne : (toString i).toList ≠ [] := by
    rw [← intStr_toString]
    unfold intStr
    split
    · simp
    · exact natStr_ne_nil _
  unfold textElem
  rw [if_neg hne]
  show (env.uni.intOf (toString i).toList).map CVal.int = _
  rw [← intStr_toString, UniTable.intOf_intStr]
  rfl

/-- The value of a field with a single value. -/
theorem attr_one (env : Env) (c : Cls) (e : Elem) (v : CVal) (h : fromElement env c e = .ok v) (n : String)
    (t : CType) (hf : ⟨n.toList, .one t⟩ ∈ fields c) (ch : Elem)
    (hc : childrenOf env ⟨n.toList, .one t⟩ e.children = [ch]) (w : CVal) (hw : childValue env t ch = .ok w) :
    Attr v n w := by
  obtain ⟨w', h1, h2⟩ := attr_of env c e v h n _ hf
  unfold FieldValue at h2
  simp only [named_children, hc, List.getLast?_singleton] at h2
  rw [hw] at h2
  injection h2 with h2
  exact h2 ▸ h1

/-- The value of a `Sequence`. -/
theorem attr_seq {α : Type} (env : Env) (c : Cls) (e : Elem) (v : CVal) (h : fromElement env c e = .ok v) (n : String)
    (c' : Cls) (hf : ⟨n.toList, .seq (.elem c')⟩ ∈ fields c) (mk : α → Elem) (l : List α) (r : CVal → α → Prop)
    (hc : childrenOf env ⟨n.toList, .seq (.elem c')⟩ e.children = l.map mk)
    (hr : ∀ x ∈ l, ∀ w, fromElement env c' (mk x) = .ok w → r w x) :
    ∃ vs, Attr v n (.list vs) ∧ All2 r vs l := by
  obtain ⟨w', h1, h2⟩ := attr_of env c e v h n _ hf
  unfold FieldValue at h2
  simp only [named_children, hc] at h2
  obtain ⟨vs, rfl, h3⟩ := h2
  refine ⟨vs, h1, ?_⟩
  clear h1 hc h
  induction l generalizing vs with
  | nil =>
    cases vs with
    | nil => trivial
    | cons _ _ => cases h3
  | cons x l ih =>
    cases vs with
    | nil => cases h3
    | cons w vs =>
      injection h3 with h4 h5
      exact ⟨hr x List.mem_cons_self w h4, ih (fun y hy => hr y (List.mem_cons_of_mem _ hy)) vs h5⟩

theorem all2_map {α β : Type} {r : CVal → β → Prop} (g : α → β) : ∀ (vs : List CVal) (l : List α),
    All2 (fun v x => r v (g x)) vs l → All2 r vs (l.map g)
  | [], [], _ => trivial
  | [], _ :: _, h => h.elim
  | _ :: _, [], h => h.elim
  | _ :: vs, _ :: l, ⟨h1, h2⟩ => ⟨h1, all2_map g vs l h2⟩

theorem groupXml_read (env : Env) (g : Int × Str) :
    ∃ v, fromElement env .group (groupXml g) = .ok v ∧ IsGroup v (describeGroup g) := by
  have hv : ∃ v, fromElement env .group (groupXml g) = .ok v := by
    apply readable_of env .group _ rfl
    intro ch hch f hf
    simp only [groupXml, Elem.children, List.mem_cons, List.not_mem_nil, or_false] at hch
    rcases hch with rfl | rfl
    · have : lookup env .group (normalise env "TagName".toList) = some ⟨"tag_name".toList, .one .text⟩ := by
        rw [lookup_ascii env .group _ (by decide)]; decide +kernel
      rw [show (textElem "TagName" g.2).tag = "TagName".toList from rfl, this] at hf
      injection hf with hf
      subst hf
      exact ⟨_, textElem_text env _ _⟩
    · have : lookup env .group (normalise env "Address".toList) = some ⟨"address".toList, .one .int⟩ := by
        rw [lookup_ascii env .group _ (by decide)]; decide +kernel
      rw [show (textElem "Address" (toString g.1).toList).tag = "Address".toList from rfl, this] at hf
      injection hf with hf
      subst hf
      exact ⟨_, textElem_int env _ _⟩
  obtain ⟨v, hv⟩ := hv
  refine ⟨v, hv, ?_, ?_⟩
  · refine attr_one env .group _ v hv "address" .int (by decide) (textElem "Address" (toString g.1).toList) ?_ _
      (textElem_int env _ _)
    simp only [groupXml, Elem.children]
    rw [childrenOf_cons env .group _ (by decide) _ _ "TagName" false rfl (by decide) (by decide +kernel),
      childrenOf_cons env .group _ (by decide) _ _ "Address" true rfl (by decide) (by decide +kernel)]
    rfl
  · refine attr_one env .group _ v hv "tag_name" .text (by decide) (textElem "TagName" g.2) ?_ _
      (textElem_text env _ _)
    simp only [groupXml, Elem.children]
    rw [childrenOf_cons env .group _ (by decide) _ _ "TagName" true rfl (by decide) (by decide +kernel),
      childrenOf_cons env .group _ (by decide) _ _ "Address" false rfl (by decide) (by decide +kernel)]
    rfl

theorem appXml_read (env : Env) (a : Int × Str × List (Int × Str)) :
    ∃ v, fromElement env .application (appXml a) = .ok v ∧ IsApp v (describeApp a) := by
  have hv : ∃ v, fromElement env .application (appXml a) = .ok v := by
    apply readable_of env .application _ rfl
    intro ch hch f hf
    simp only [appXml, Elem.children, List.mem_cons, List.mem_map] at hch
    rcases hch with rfl | rfl | ⟨g, -, rfl⟩
    · have : lookup env .application (normalise env "TagName".toList) = some ⟨"tag_name".toList, .one .text⟩ := by
        rw [lookup_ascii env .application _ (by decide)]; decide +kernel
      rw [show (textElem "TagName" a.2.1).tag = "TagName".toList from rfl, this] at hf
      injection hf with hf
      subst hf
      exact ⟨_, textElem_text env _ _⟩
    · have : lookup env .application (normalise env "Address".toList) = some ⟨"address".toList, .one .int⟩ := by
        rw [lookup_ascii env .application _ (by decide)]; decide +kernel
      rw [show (textElem "Address" (toString a.1).toList).tag = "Address".toList from rfl, this] at hf
      injection hf with hf
      subst hf
      exact ⟨_, textElem_int env _ _⟩
    · have : lookup env .application (normalise env "Group".toList)
          = some ⟨"groups".toList, .seq (.elem .group)⟩ := by
        rw [lookup_ascii env .application _ (by decide)]; decide +kernel
      rw [show (groupXml g).tag = "Group".toList from rfl, this] at hf
      injection hf with hf
      subst hf
      obtain ⟨v, hv, -⟩ := groupXml_read env g
      exact ⟨v, hv⟩
  obtain ⟨v, hv⟩ := hv
  refine ⟨v, hv, ?_, ?_⟩
  · refine attr_one env .application _ v hv "address" .int (by decide) (textElem "Address" (toString a.1).toList) ?_ _
      (textElem_int env _ _)
    simp only [appXml, Elem.children]
    rw [childrenOf_cons env .application _ (by decide) _ _ "TagName" false rfl (by decide) (by decide +kernel),
      childrenOf_cons env .application _ (by decide) _ _ "Address" true rfl (by decide) (by decide +kernel),
      childrenOf_map env .application _ (by decide) groupXml "Group".toList (fun _ => rfl) false (by decide)
        (by decide +kernel)]
    rfl
  · obtain ⟨vs, h1, h2⟩ := attr_seq env .application _ v hv "groups" .group (by decide) groupXml a.2.2
      (fun v g => IsGroup v (describeGroup g)) (by
        simp only [appXml, Elem.children]
        rw [childrenOf_cons env .application _ (by decide) _ _ "TagName" false rfl (by decide) (by decide +kernel),
          childrenOf_cons env .application _ (by decide) _ _ "Address" false rfl (by decide) (by decide +kernel),
          childrenOf_map env .application _ (by decide) groupXml "Group".toList (fun _ => rfl) true (by decide)
            (by decide +kernel)]
        rfl) (by
        intro g _ w hw
        obtain ⟨v', hv', hg⟩ := groupXml_read env g
        rw [hw] at hv'
        injection hv' with hv'
        exact hv' ▸ hg)
    exact ⟨vs, h1, all2_map _ _ _ h2⟩

theorem interfaceXml_read (env : Env) (t : Str) :
    ∃ v, fromElement env .interface (.mk "Interface".toList [] none [textElem "InterfaceType" t]) = .ok v ∧
      Attr v "interface_type" (optStr (some (shown t))) := by
  have hv : ∃ v, fromElement env .interface (.mk "Interface".toList [] none [textElem "InterfaceType" t]) = .ok v := by
    apply readable_of env .interface _ rfl
    intro ch hch f hf
    simp only [Elem.children, List.mem_cons, List.not_mem_nil, or_false] at hch
    subst hch
    have : lookup env .interface (normalise env "InterfaceType".toList)
        = some ⟨"interface_type".toList, .one .text⟩ := by
      rw [lookup_ascii env .interface _ (by decide)]; decide +kernel
    rw [show (textElem "InterfaceType" t).tag = "InterfaceType".toList from rfl, this] at hf
    injection hf with hf
    subst hf
    exact ⟨_, textElem_text env _ _⟩
  obtain ⟨v, hv⟩ := hv
  refine ⟨v, hv, ?_⟩
  refine attr_one env .interface _ v hv "interface_type" .text (by decide) (textElem "InterfaceType" t) ?_ _
    (textElem_text env _ _)
  simp only [Elem.children]
  rw [childrenOf_cons env .interface _ (by decide) _ _ "InterfaceType" true rfl (by decide) (by decide +kernel)]
  rfl

theorem netXml_read (env : Env) (n : Int × Str × List (Int × Str × List (Int × Str))) :
    ∃ v, fromElement env .network (netXml n) = .ok v ∧ IsNet v (describeNet n) := by
  have hv : ∃ v, fromElement env .network (netXml n) = .ok v := by
    apply readable_of env .network _ rfl
    intro ch hch f hf
    simp only [netXml, Elem.children, List.mem_cons, List.mem_map] at hch
    rcases hch with rfl | rfl | rfl | ⟨a, -, rfl⟩
    · have : lookup env .network (normalise env "Address".toList) = some ⟨"address".toList, .one .int⟩ := by
        rw [lookup_ascii env .network _ (by decide)]; decide +kernel
      rw [show (textElem "Address" (toString n.1).toList).tag = "Address".toList from rfl, this] at hf
      injection hf with hf
      subst hf
      exact ⟨_, textElem_int env _ _⟩
    · have : lookup env .network (normalise env "NetworkNumber".toList)
          = some ⟨"network_number".toList, .one .int⟩ := by
        rw [lookup_ascii env .network _ (by decide)]; decide +kernel
      rw [show (textElem "NetworkNumber" (toString n.1).toList).tag = "NetworkNumber".toList from rfl, this] at hf
      injection hf with hf
      subst hf
      exact ⟨_, textElem_int env _ _⟩
    · have : lookup env .network (normalise env "Interface".toList)
          = some ⟨"interface".toList, .one (.elem .interface)⟩ := by
        rw [lookup_ascii env .network _ (by decide)]; decide +kernel
      rw [show (Elem.mk "Interface".toList [] none [textElem "InterfaceType" n.2.1]).tag = "Interface".toList from rfl,
        this] at hf
      injection hf with hf
      subst hf
      obtain ⟨v, hv, -⟩ := interfaceXml_read env n.2.1
      exact ⟨v, hv⟩
    · have : lookup env .network (normalise env "Application".toList)
          = some ⟨"applications".toList, .seq (.elem .application)⟩ := by
        rw [lookup_ascii env .network _ (by decide)]; decide +kernel
      rw [show (appXml a).tag = "Application".toList from rfl, this] at hf
      injection hf with hf
      subst hf
      obtain ⟨v, hv, -⟩ := appXml_read env a
      exact ⟨v, hv⟩
  obtain ⟨v, hv⟩ := hv
  refine ⟨v, hv, ?_, ?_⟩
  · obtain ⟨i, hi, ht⟩ := interfaceXml_read env n.2.1
    refine ⟨i, ?_, ht⟩
    refine attr_one env .network _ v hv "interface" (.elem .interface) (by decide) _ ?_ _ hi
    simp only [netXml, Elem.children]
    rw [childrenOf_cons env .network _ (by decide) _ _ "Address" false rfl (by decide) (by decide +kernel),
      childrenOf_cons env .network _ (by decide) _ _ "NetworkNumber" false rfl (by decide) (by decide +kernel),
      childrenOf_cons env .network _ (by decide) _ _ "Interface" true rfl (by decide) (by decide +kernel),
      childrenOf_map env .network _ (by decide) appXml "Application".toList (fun _ => rfl) false (by decide)
        (by decide +kernel)]
    rfl
  · obtain ⟨vs, h1, h2⟩ := attr_seq env .network _ v hv "applications" .application (by decide) appXml n.2.2
      (fun v a => IsApp v (describeApp a)) (by
        simp only [netXml, Elem.children]
        rw [childrenOf_cons env .network _ (by decide) _ _ "Address" false rfl (by decide) (by decide +kernel),
          childrenOf_cons env .network _ (by decide) _ _ "NetworkNumber" false rfl (by decide) (by decide +kernel),
          childrenOf_cons env .network _ (by decide) _ _ "Interface" false rfl (by decide) (by decide +kernel),
          childrenOf_map env .network _ (by decide) appXml "Application".toList (fun _ => rfl) true (by decide)
            (by decide +kernel)]
        rfl) (by
        intro a _ w hw
        obtain ⟨v', hv', hg⟩ := appXml_read env a
        rw [hw] at hv'
        injection hv' with hv'
        exact hv' ▸ hg)
    exact ⟨vs, h1, all2_map _ _ _ h2⟩

theorem projectXml_read (env : Env) (name : Str) (nets : List (Int × Str × List (Int × Str × List (Int × Str)))) :
    ∃ v ns, fromElement env .project (.mk "Project".toList [] none (textElem "TagName" name :: nets.map netXml)) = .ok v ∧
      Attr v "network" (.list ns) ∧ All2 IsNet ns (nets.map describeNet) := by
  have hv : ∃ v, fromElement env .project
      (.mk "Project".toList [] none (textElem "TagName" name :: nets.map netXml)) = .ok v := by
    apply readable_of env .project _ rfl
    intro ch hch f hf
    simp only [Elem.children, List.mem_cons, List.mem_map] at hch
    rcases hch with rfl | ⟨n, -, rfl⟩
    · have : lookup env .project (normalise env "TagName".toList) = some ⟨"tag_name".toList, .one .text⟩ := by
        rw [lookup_ascii env .project _ (by decide)]; decide +kernel
      rw [show (textElem "TagName" name).tag = "TagName".toList from rfl, this] at hf
      injection hf with hf
      subst hf
      exact ⟨_, textElem_text env _ _⟩
    · have : lookup env .project (normalise env "Network".toList)
          = some ⟨"network".toList, .seq (.elem .network)⟩ := by
        rw [lookup_ascii env .project _ (by decide)]; decide +kernel
      rw [show (netXml n).tag = "Network".toList from rfl, this] at hf
      injection hf with hf
      subst hf
      obtain ⟨v, hv, -⟩ := netXml_read env n
      exact ⟨v, hv⟩
  obtain ⟨v, hv⟩ := hv
  obtain ⟨vs, h1, h2⟩ := attr_seq env .project _ v hv "network" .network (by decide) netXml nets
    (fun v a => IsNet v (describeNet a)) (by
      simp only [Elem.children]
      rw [childrenOf_cons env .project _ (by decide) _ _ "TagName" false rfl (by decide) (by decide +kernel),
        childrenOf_map env .project _ (by decide) netXml "Network".toList (fun _ => rfl) true (by decide)
          (by decide +kernel)]
      rfl) (by
      intro a _ w hw
      obtain ⟨v', hv', hg⟩ := netXml_read env a
      rw [hw] at hv'
      injection hv' with hv'
      exact hv' ▸ hg)
  exact ⟨v, vs, hv, h1, all2_map _ _ _ h2⟩

theorem installationXml_read (env : Env) (version name : Str)
    (nets : List (Int × Str × List (Int × Str × List (Int × Str)))) :
    ∃ v, fromElement env .installation (installationXml version name nets) = .ok v ∧
      IsInstallation v (nets.map describeNet) := by
  obtain ⟨p, ns, hp, hn, hall⟩ := projectXml_read env name nets
  have hv : ∃ v, fromElement env .installation (installationXml version name nets) = .ok v := by
    apply readable_of env .installation _ rfl
    intro ch hch f hf
    simp only [installationXml, Elem.children, List.mem_cons, List.not_mem_nil, or_false] at hch
    rcases hch with rfl | rfl
    · have : lookup env .installation (normalise env "Version".toList) = some ⟨"version".toList, .one .text⟩ := by
        rw [lookup_ascii env .installation _ (by decide)]; decide +kernel
      rw [show (textElem "Version" version).tag = "Version".toList from rfl, this] at hf
      injection hf with hf
      subst hf
      exact ⟨_, textElem_text env _ _⟩
    · have : lookup env .installation (normalise env "Project".toList)
          = some ⟨"project".toList, .one (.elem .project)⟩ := by
        rw [lookup_ascii env .installation _ (by decide)]; decide +kernel
      simp only [Elem.tag] at hf
      rw [this] at hf
      injection hf with hf
      subst hf
      exact ⟨p, hp⟩
  obtain ⟨v, hv⟩ := hv
  refine ⟨v, hv, p, ns, ?_, hn, hall⟩
  refine attr_one env .installation _ v hv "project" (.elem .project) (by decide) _ ?_ _ hp
  simp only [installationXml, Elem.children]
  rw [childrenOf_cons env .installation _ (by decide) _ _ "Version" false rfl (by decide) (by decide +kernel),
    childrenOf_cons env .installation _ (by decide) _ _ "Project" true rfl (by decide) (by decide +kernel)]
  rfl

/-! ## C75 -/

/-- The archive has exactly one member, and its name ends in `.xml`. -/
def IsBackup (members : List (Str × Py Elem)) : Prop := ∃ stem root, members = [(stem ++ ".xml".toList, root)]

/-- The claim: whatever `CBZ` is given, a file that is not an archive is read as XML
itself; an archive is refused as not being a project iff it does not have exactly one
member with the extension `.xml`, and otherwise that member is read. -/
def C75_claim : Prop :=
  ∀ (env : Env) (src : Source),
    (∀ root, open' env src (.plain root) = some (root.bind (fromElement env .installation))) ∧
    (∀ members, open' env src (.zip members) = none ↔ ¬ IsBackup members) ∧
    ∀ stem root, open' env src (.zip [(stem ++ ".xml".toList, root)]) =
      some (root.bind (fromElement env .installation))

/-- C75 is false: from an open file, as the daemon gives it, XML is not read. Looking
for an archive has moved to the end of the file. -/
theorem C75_false : ¬ C75_claim := by
  intro h
  have := (h .ascii (.handle true)).1 (.ok (.mk "Installation".toList [] none []))
  revert this
  have hp : open' .ascii (.handle true) (.plain (.ok (.mk "Installation".toList [] none []))) =
      some (.error .parseError) := rfl
  have hf : ((.ok (.mk "Installation".toList [] none []) : Py Elem).bind (fromElement .ascii .installation)).isOk =
      true := by decide +kernel
  rw [hp]
  intro e
  injection e with e
  rw [← e] at hf
  cases hf

theorem endsWith_iff (name suffix : Str) : Str.endsWith name suffix = true ↔ ∃ stem, name = stem ++ suffix := by
  unfold Str.endsWith
  rw [List.isSuffixOf_iff_suffix]
  constructor
  · rintro ⟨t, h⟩; exact ⟨t, h.symm⟩
  · rintro ⟨t, h⟩; exact ⟨t, h.symm⟩

theorem open_backup (env : Env) (src : Source) (hs : src ≠ .handle false) (stem : Str) (root : Py Elem) :
    open' env src (.zip [(stem ++ ".xml".toList, root)]) = some (root.bind (fromElement env .installation)) := by
  unfold open'
  simp only [(endsWith_iff (stem ++ ".xml".toList) ".xml".toList).2 ⟨stem, rfl⟩, if_true, if_neg hs]

/-- C75, the part about archives: given a name, or a file in which it is possible to
seek, an archive is refused iff it does not have exactly one member with the extension
`.xml`, and otherwise that member is read. Missing: files that cannot seek. -/
theorem C75_archive_partial (env : Env) (src : Source) (hs : src ≠ .handle false) :
    (∀ members, open' env src (.zip members) = none ↔ ¬ IsBackup members) ∧
    ∀ stem root, open' env src (.zip [(stem ++ ".xml".toList, root)]) =
      some (root.bind (fromElement env .installation)) := by
  refine ⟨fun members => ⟨?_, ?_⟩, open_backup env src hs⟩
  · rintro h ⟨stem, root, rfl⟩
    rw [open_backup env src hs] at h
    cases h
  · intro hn
    unfold open'
    simp only [if_neg hs]
    split
    · rename_i name root
      by_cases hx : Str.endsWith name ".xml".toList = true
      · obtain ⟨stem, rfl⟩ := (endsWith_iff name _).1 hx
        exact absurd ⟨stem, root, rfl⟩ hn
      · rw [if_neg hx]
    · rfl

/-- C75, the part about XML: a file that is not an archive is read as XML itself if
its name is given, or if it is open and cannot seek. Missing: an open file that can,
as the daemon's `--project-file`. -/
theorem C75_xml_partial (env : Env) (src : Source) (hs : src ≠ .handle true) (root : Py Elem) :
    open' env src (.plain root) = some (root.bind (fromElement env .installation)) := by
  cases src with
  | path => rfl
  | handle b => cases b with
    | false => rfl
    | true => exact absurd rfl hs

/-- C75: in the two cases that are missing nothing is ever read. -/
theorem C75_unread (env : Env) :
    (∀ root, open' env (.handle true) (.plain root) = some (.error .parseError)) ∧
    ∀ members, open' env (.handle false) (.zip members) = some (.error .parseError) :=
  ⟨fun _ => rfl, fun _ => rfl⟩

/-- The demonstration archives of the tests: one member is read, two are refused. -/
example (env : Env) (r : Py Elem) :
    open' env (.handle true) (.zip [("HOME.xml".toList, r)]) = some (r.bind (fromElement env .installation)) ∧
    open' env .path (.zip [("EXAMPLE.xml".toList, r), ("HOME.xml".toList, r)]) = none ∧
    open' env .path (.zip [("HOME.txt".toList, r)]) = none ∧ open' env .path (.zip []) = none := by
  refine ⟨rfl, rfl, rfl, rfl⟩

/-! ## C77 -/

theorem dictGet_intLabels (labels : List (Option Int × Str)) (a : Int) :
    dictGet (intLabels labels) a = dictGet labels (some a) := by
  induction labels with
  | nil => rfl
  | cons p labels ih =>
    obtain ⟨k, l⟩ := p
    cases k with
    | none =>
      rw [dictGet_cons', if_neg (by simp), ← ih]
      rfl
    | some b =>
      have : intLabels ((some b, l) :: labels) = (b, l) :: intLabels labels := rfl
      rw [this, dictGet_cons', dictGet_cons', ih]
      by_cases h : b = a <;> simp [h]

/-- The file holds this XML: as it is, or as the only member of an archive. -/
def Holds (f : OpenFile) (e : Elem) : Prop :=
  f.file = .plain (.ok e) ∨ ∃ stem, f.file = .zip [(stem ++ ".xml".toList, .ok e)]

/-- The file holds this XML in a way in which it can be read: as an archive in which
it is possible to seek, or as XML in a pipe. -/
def HoldsReadably (f : OpenFile) (e : Elem) : Prop :=
  (f.seekable = true ∧ ∃ stem, f.file = .zip [(stem ++ ".xml".toList, .ok e)]) ∨
  (f.seekable = false ∧ f.file = .plain (.ok e))

theorem open_readable (env : Env) (f : OpenFile) (e : Elem) (h : HoldsReadably f e) :
    open' env (.handle f.seekable) f.file = some (fromElement env .installation e) := by
  obtain ⟨file, seekable⟩ := f
  rcases h with ⟨hs, stem, hf⟩ | ⟨hs, hf⟩ <;> simp only at hs hf <;> subst hs hf
  · exact open_backup env _ (by simp) stem _
  · exact C75_xml_partial env _ (by simp) _

/-- C77, the part that holds: from a project file that can be read, the daemon takes
exactly the proper names of the groups of the only lighting application of the only
direct network. Missing: XML in an ordinary file, for which it is false. -/
theorem C77_labels_partial (env : Env) (version name : Str)
    (nets : List (Int × Str × List (Int × Str × List (Int × Str)))) (f : OpenFile)
    (hf : HoldsReadably f (installationXml version name nets)) :
    ∃ labels, readCbzLabels env f = some (.ok labels) ∧
      ∀ a l, dictGet (intLabels labels) a = some l ↔
        ∃ app, Labelled (nets.map describeNet) app ∧ LastNamed env app.groups a l := by
  obtain ⟨v, h1, h2⟩ := installationXml_read env version name nets
  have hn : ∀ app, Labelled (nets.map describeNet) app → ∀ g ∈ app.groups, g.name ≠ none := by
    rintro app ⟨n, ⟨pre, post, e, -, -, -⟩, ⟨pre', post', e', -, -, -⟩⟩ g hg
    have hn : n ∈ nets.map describeNet := by rw [e]; simp
    obtain ⟨x, -, rfl⟩ := List.mem_map.1 hn
    have ha : app ∈ (describeNet x).apps := by rw [e']; simp
    obtain ⟨y, -, rfl⟩ := List.mem_map.1 ha
    obtain ⟨z, -, rfl⟩ := List.mem_map.1 hg
    simp [describeGroup]
  obtain ⟨labels, hl⟩ := (C69_readable env v _ h2).2 hn
  refine ⟨labels, ?_, fun a l => ?_⟩
  · unfold readCbzLabels
    rw [open_readable env f _ hf]
    show some ((fromElement env .installation (installationXml version name nets)).bind (readLabels env)) = _
    rw [h1]
    show some (readLabels env v) = _
    rw [hl]
  · rw [dictGet_intLabels]
    exact C69_labels env v _ h2 labels hl a l

/-- For each group address that has a proper name in the only lighting application of
the only direct network, the light and the sensor are announced under that name, and the
others under the generic name. -/
def AnnouncedAs (env : Env) (nets : List (Int × Str × List (Int × Str × List (Int × Str)))) (ga : Int)
    (effects : List (Eff MqttEff)) : Prop :=
  ∃ n,
    ((∃ app, Labelled (nets.map describeNet) app ∧ LastNamed env app.groups ga n) ∨
      ((∀ app l, Labelled (nets.map describeNet) app → ¬ LastNamed env app.groups ga l) ∧
        n = "C-Bus Light ".toList ++ threeDigits ga.toNat)) ∧
    (∃ v, IsLightConfig n ga v ∧
      (.ext (.publish (topicText .lightConfig ga).toList (.json (.obj v)) 1 true)) ∈ effects) ∧
    (∃ v, IsSensorConfig n ga v ∧
      (.ext (.publish (topicText .sensorConfig ga).toList (.json (.obj v)) 1 true)) ∈ effects)

/-- The claim: from every file of a project the labels are read, and when the daemon
has connected to the broker the lights are announced under these names. -/
def C77_claim : Prop :=
  ∀ (env : Env) (version name : Str) (nets : List (Int × Str × List (Int × Str × List (Int × Str)))) (f : OpenFile),
    Holds f (installationXml version name nets) →
    ∃ labels, readCbzLabels env f = some (.ok labels) ∧
      ∀ ga ∈ groupAddresses, ∀ s, AnnouncedAs env nets ga (Mqtt.onConnect (intLabels labels) s).2.1

/-- C77 is false: `--project-file` with an XML file (`CBZ or XML`, says the help) stops
the daemon with an exception. -/
theorem C77_false : ¬ C77_claim := by
  intro h
  obtain ⟨labels, hl, -⟩ := h .ascii [] [] [] ⟨.plain (.ok (installationXml [] [] [])), true⟩ (.inl rfl)
  have hp : readCbzLabels .ascii ⟨.plain (.ok (installationXml [] [] [])), true⟩ = some (.error .parseError) := rfl
  rw [hp] at hl
  injection hl with hl
  cases hl

/-- C77, the part that holds: if the file can be read, the lights are announced under
the names in it. Missing: XML in an ordinary file, for which it is false. -/
theorem C77_announced_partial (env : Env) (version name : Str)
    (nets : List (Int × Str × List (Int × Str × List (Int × Str)))) (f : OpenFile)
    (hf : HoldsReadably f (installationXml version name nets)) :
    ∃ labels, readCbzLabels env f = some (.ok labels) ∧
      ∀ ga ∈ groupAddresses, ∀ s, AnnouncedAs env nets ga (Mqtt.onConnect (intLabels labels) s).2.1 := by
  obtain ⟨labels, h1, h2⟩ := C77_labels_partial env version name nets f hf
  refine ⟨labels, h1, fun ga hg s => ⟨lightName (intLabels labels) ga, ?_, ?_⟩⟩
  · unfold lightName
    cases hl : dictGet (intLabels labels) ga with
    | some l => exact .inl ((h2 ga l).1 hl)
    | none =>
      refine .inr ⟨fun app l ha hn => ?_, rfl⟩
      rw [(h2 ga l).2 ⟨app, ha, hn⟩] at hl
      cases hl
  · obtain ⟨⟨v, k1, k2⟩, w, k3, k4⟩ := C66_announced (intLabels labels) ga hg
    rw [C66_connect]
    refine ⟨⟨v, k2, ?_⟩, ⟨w, k4, ?_⟩⟩
    · apply List.mem_cons_of_mem
      refine List.mem_map.2 ⟨_, ?_, rfl⟩
      exact (List.mem_filter.1 (k1 ▸ List.mem_singleton_self _)).1
    · apply List.mem_cons_of_mem
      refine List.mem_map.2 ⟨_, ?_, rfl⟩
      exact (List.mem_filter.1 (k3 ▸ List.mem_singleton_self _)).1

/-- A project with a bridged network, a direct one with a trigger and a lighting
application; default, unused and repeated names. -/
def exampleNets : List (Int × Str × List (Int × Str × List (Int × Str))) :=
  [(253, "bridge".toList, [(56, "Lighting".toList, [(1, "no".toList)])]),
   (254, "serial".toList, [
     (202, "Trigger".toList, [(1, "no".toList)]),
     (56, "Lighting".toList, [(1, " Kitchen ".toList), (2, "Group 2".toList), (3, "<Unused>".toList),
       (4, "Hall".toList), (4, "Porch".toList), (4, "Group 4".toList), (5, "Group 4".toList)])])]

/-- The archive of a project. -/
def backup (e : Elem) : OpenFile := ⟨.zip [("HOME.xml".toList, .ok e)], true⟩

theorem backup_readable (e : Elem) : HoldsReadably (backup e) e := .inl ⟨rfl, "HOME".toList, rfl⟩

example : (readCbzLabels .ascii (backup (installationXml "1".toList "HOME".toList exampleNets))).map
      (fun r => r.map intLabels) =
    some (.ok [(1, "Kitchen".toList), (4, "Porch".toList), (5, "Group 4".toList)]) := by decide +kernel

example : Labelled (exampleNets.map describeNet) (describeApp (56, "Lighting".toList,
    [(1, " Kitchen ".toList), (2, "Group 2".toList), (3, "<Unused>".toList), (4, "Hall".toList), (4, "Porch".toList),
      (4, "Group 4".toList), (5, "Group 4".toList)])) := by
  refine ⟨_, (only_iff _ _ _).2 (by decide +kernel : _ = [describeNet exampleNets[1]]),
    (only_iff _ _ _).2 (by decide +kernel)⟩

/-! ## C70 -/

/-- The file of a project with one network that has the lighting application. -/
def lightingFile (gs : List (Int × Str)) : OpenFile :=
  backup (installationXml "1".toList "HOME".toList [(254, "serial".toList, [(56, "Lighting".toList, gs)])])

/-- The claim: a group whose name is empty in the file gets no label. -/
def C70_claim : Prop :=
  ∀ (env : Env) (gs : List (Int × Str)) (labels : List (Option Int × Str)) (a : Int),
    readCbzLabels env (lightingFile gs) = some (.ok labels) →
    (∀ g ∈ gs, g.1 = a → g.2 = []) → dictGet labels (some a) = none

/-- C70 is false: `<TagName/>` becomes the label `None`. -/
theorem C70_false : ¬ C70_claim := by
  intro h
  have := h .ascii [(7, [])] [(some 7, "None".toList)] 7 (by decide +kernel) (by simp)
  revert this
  decide +kernel

theorem lightingFile_labelled (gs : List (Int × Str)) (app : App)
    (h : Labelled ([(254, "serial".toList, [(56, "Lighting".toList, gs)])].map describeNet) app) :
    app = describeApp (56, "Lighting".toList, gs) := by
  obtain ⟨n, ⟨pre, post, e, -⟩, ⟨pre', post', e', -⟩⟩ := h
  have hn : n ∈ [(254, "serial".toList, [(56, "Lighting".toList, gs)])].map describeNet := by rw [e]; simp
  obtain ⟨x, hx, rfl⟩ := List.mem_map.1 hn
  have ha : app ∈ (describeNet x).apps := by rw [e']; simp
  rw [List.mem_singleton] at hx
  subst hx
  obtain ⟨y, hy, rfl⟩ := List.mem_map.1 ha
  have hy' : y ∈ [((56 : Int), "Lighting".toList, gs)] := hy
  rw [List.mem_singleton] at hy'
  rw [hy']

/-- C70, the part that holds: a name of white space only (but not empty) gives no
label. Missing: the empty name, for which it is false. -/
theorem C70_blank_partial (env : Env) (gs : List (Int × Str)) (labels : List (Option Int × Str)) (a : Int)
    (h : readCbzLabels env (lightingFile gs) = some (.ok labels))
    (hb : ∀ g ∈ gs, g.1 = a → g.2 ≠ [] ∧ ∀ c ∈ g.2, env.uni.isSpace c = true) :
    dictGet labels (some a) = none := by
  obtain ⟨labels', h1, h2⟩ := C77_labels_partial env "1".toList "HOME".toList
    [(254, "serial".toList, [(56, "Lighting".toList, gs)])] _ (backup_readable _)
  have hl : labels' = labels := by
    have := h1.symm.trans h
    simpa using this
  subst hl
  cases hd : dictGet labels' (some a) with
  | none => rfl
  | some l =>
    exfalso
    rw [← dictGet_intLabels] at hd
    obtain ⟨app, ha, pre, t, post, e, hp, -⟩ := (h2 a l).1 hd
    rw [lightingFile_labelled gs app ha] at e
    have hm : (⟨some a, some t⟩ : Group) ∈ gs.map describeGroup := by
      show _ ∈ (describeApp (56, "Lighting".toList, gs)).groups
      rw [e]; simp
    obtain ⟨g, hg, eg⟩ := List.mem_map.1 hm
    unfold describeGroup at eg
    injection eg with e1 e2
    injection e1 with e1
    injection e2 with e2
    obtain ⟨b1, b2⟩ := hb g hg e1
    unfold shown at e2
    rw [if_neg b1] at e2
    subst e2
    obtain ⟨⟨⟨x, y, hxy, -, -⟩, hh, -⟩, hne, -⟩ := hp
    cases l with
    | nil => exact hne rfl
    | cons c l =>
      have hc := b2 c (by rw [hxy]; simp)
      rw [hh c rfl] at hc
      cases hc

/-- C70: in general an empty name is the same as the name `None`. -/
theorem C70_none (env : Env) (gs : List (Int × Str)) (labels labels' : List (Option Int × Str))
    (h : readCbzLabels env (lightingFile gs) = some (.ok labels))
    (h' : readCbzLabels env (lightingFile (gs.map fun g => (g.1, shown g.2))) = some (.ok labels')) (a : Int) :
    dictGet labels (some a) = dictGet labels' (some a) := by
  have key : ∀ gs labels, readCbzLabels env (lightingFile gs) = some (.ok labels) → ∀ l,
      dictGet labels (some a) = some l ↔ ∃ app, Labelled
        ([(254, "serial".toList, [(56, "Lighting".toList, gs)])].map describeNet) app ∧ LastNamed env app.groups a l := by
    intro gs labels h l
    obtain ⟨l2, h1, h2⟩ := C77_labels_partial env "1".toList "HOME".toList
      [(254, "serial".toList, [(56, "Lighting".toList, gs)])] _ (backup_readable _)
    have hl : l2 = labels := by
      have := h1.symm.trans h
      simpa using this
    subst hl
    rw [← dictGet_intLabels]
    exact h2 a l
  have hs : ∀ s, shown (shown s) = shown s := by
    intro s; unfold shown; split
    · rw [if_neg (by decide)]
    · rfl
  have e : ([(254, "serial".toList, [(56, "Lighting".toList, gs.map fun g => (g.1, shown g.2))])] :
        List (Int × Str × List (Int × Str × List (Int × Str)))).map describeNet
      = [(254, "serial".toList, [(56, "Lighting".toList, gs)])].map describeNet := by
    simp only [List.map_cons, List.map_nil, describeNet, describeApp, List.map_map]
    have : (describeGroup ∘ fun g : Int × Str => (g.1, shown g.2)) = describeGroup := by
      funext g
      simp only [Function.comp, describeGroup, hs]
    rw [this]
  have k2 := key _ labels' h'
  rw [e] at k2
  apply Option.ext
  intro l
  rw [key gs labels h l, k2 l]

example : readCbzLabels .ascii (lightingFile [(7, " ".toList), (8, [])]) =
    some (.ok [(some 8, "None".toList)]) := by decide +kernel

end CBus.Props
