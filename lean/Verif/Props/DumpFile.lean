import Verif.Props.Dump

/-! # C78, C81: dumps of whole files -/

namespace CBus.Props
open CBus CBus.Cbz CBus.Spec.Cbz
open CBus.Spec.Dump (Table LastWith addressKey jInt jStr Parts Numbers UnitGroups IsGroupJson IsAppJson IsUnitJson
  IsNetJson IsDump IsParam IsUnit hexChar hexByte UnitFile AppFile NetFile paramXml groupParam unitXml projectXml
  unitJson appJson netJson projectJson Distinct)

/-! ## Every project that can be read is described -/

theorem isParam_of (env : Env) (e : Elem) (v : CVal) (h : fromElement env .pp e = .ok v) : ∃ p, IsParam v p := by
  obtain ⟨w1, h1, k1⟩ := attr_of env .pp e v h "name" (.one .text) (by decide)
  obtain ⟨w2, h2, k2⟩ := attr_of env .pp e v h "value" (.one .text) (by decide)
  obtain ⟨a, rfl⟩ := textField env e _ w1 rfl k1
  obtain ⟨b, rfl⟩ := textField env e _ w2 rfl k2
  exact ⟨(a, b), h1, h2⟩

theorem isUnit_of (env : Env) (e : Elem) (v : CVal) (h : fromElement env .unit e = .ok v) : ∃ u, IsUnit v u := by
  obtain ⟨w1, h1, k1⟩ := attr_of env .unit e v h "address" (.one .int) (by decide)
  obtain ⟨w2, h2, k2⟩ := attr_of env .unit e v h "tag_name" (.one .text) (by decide)
  obtain ⟨w3, h3, k3⟩ := attr_of env .unit e v h "unit_type" (.one .text) (by decide)
  obtain ⟨w4, h4, k4⟩ := attr_of env .unit e v h "unit_name" (.one .text) (by decide)
  obtain ⟨w5, h5, k5⟩ := attr_of env .unit e v h "serial_number" (.one .text) (by decide)
  obtain ⟨w6, h6, k6⟩ := attr_of env .unit e v h "catalog_number" (.one .text) (by decide)
  obtain ⟨w7, h7, k7⟩ := attr_of env .unit e v h "pp" (.seq (.elem .pp)) (by decide)
  obtain ⟨a1, rfl⟩ := intField env e _ w1 rfl k1
  obtain ⟨a2, rfl⟩ := textField env e _ w2 rfl k2
  obtain ⟨a3, rfl⟩ := textField env e _ w3 rfl k3
  obtain ⟨a4, rfl⟩ := textField env e _ w4 rfl k4
  obtain ⟨a5, rfl⟩ := textField env e _ w5 rfl k5
  obtain ⟨a6, rfl⟩ := textField env e _ w6 rfl k6
  obtain ⟨vs, rfl, hvs⟩ := seqField env e _ w7 _ rfl k7
  obtain ⟨ps, hps⟩ := all2_exists (r := IsParam) vs fun v hv => by
    obtain ⟨ch, -, hc⟩ := hvs v hv
    exact isParam_of env ch v hc
  exact ⟨⟨a1, a2, a3, a4, a5, a6, ps⟩, h1, h2, h3, h4, h5, h6, vs, h7, hps⟩

theorem isDumpApp_of (env : Env) (e : Elem) (v : CVal) (h : fromElement env .application e = .ok v) :
    ∃ a, Spec.Dump.IsApp v a := by
  obtain ⟨w1, h1, k1⟩ := attr_of env .application e v h "address" (.one .int) (by decide)
  obtain ⟨w2, h2, k2⟩ := attr_of env .application e v h "tag_name" (.one .text) (by decide)
  obtain ⟨w3, h3, k3⟩ := attr_of env .application e v h "description" (.one .text) (by decide)
  obtain ⟨w7, h7, k7⟩ := attr_of env .application e v h "groups" (.seq (.elem .group)) (by decide)
  obtain ⟨a1, rfl⟩ := intField env e _ w1 rfl k1
  obtain ⟨a2, rfl⟩ := textField env e _ w2 rfl k2
  obtain ⟨a3, rfl⟩ := textField env e _ w3 rfl k3
  obtain ⟨vs, rfl, hvs⟩ := seqField env e _ w7 _ rfl k7
  obtain ⟨gs, hgs⟩ := all2_exists (r := IsGroup) vs fun v hv => by
    obtain ⟨ch, -, hc⟩ := hvs v hv
    exact isGroup_of env ch v hc
  exact ⟨⟨a1, a2, a3, gs⟩, h1, h2, h3, vs, h7, hgs⟩

theorem isDumpNet_of (env : Env) (e : Elem) (v : CVal) (h : fromElement env .network e = .ok v) :
    ∃ n, Spec.Dump.IsNet v n := by
  obtain ⟨w1, h1, k1⟩ := attr_of env .network e v h "address" (.one .int) (by decide)
  obtain ⟨w2, h2, k2⟩ := attr_of env .network e v h "tag_name" (.one .text) (by decide)
  obtain ⟨w3, h3, k3⟩ := attr_of env .network e v h "network_number" (.one .int) (by decide)
  obtain ⟨w4, h4, k4⟩ := attr_of env .network e v h "applications" (.seq (.elem .application)) (by decide)
  obtain ⟨w5, h5, k5⟩ := attr_of env .network e v h "units" (.seq (.elem .unit)) (by decide)
  obtain ⟨a1, rfl⟩ := intField env e _ w1 rfl k1
  obtain ⟨a2, rfl⟩ := textField env e _ w2 rfl k2
  obtain ⟨a3, rfl⟩ := intField env e _ w3 rfl k3
  obtain ⟨vs, rfl, hvs⟩ := seqField env e _ w4 _ rfl k4
  obtain ⟨us, rfl, hus⟩ := seqField env e _ w5 _ rfl k5
  obtain ⟨as, has⟩ := all2_exists (r := Spec.Dump.IsApp) vs fun v hv => by
    obtain ⟨ch, -, hc⟩ := hvs v hv
    exact isDumpApp_of env ch v hc
  obtain ⟨ds, hds⟩ := all2_exists (r := IsUnit) us fun v hv => by
    obtain ⟨ch, -, hc⟩ := hus v hv
    exact isUnit_of env ch v hc
  exact ⟨⟨a1, a2, a3, as, ds⟩, h1, h2, h3, ⟨vs, h4, has⟩, us, h5, hds⟩

/-- C78: the description by networks, applications, groups and units fits every file
that can be read; the dump of a file without a project fails. -/
theorem C78_described (env : Env) (e : Elem) (v : CVal) (h : fromElement env .installation e = .ok v) :
    (∃ nets, Spec.Dump.IsInstallation v nets) ∨
    (Attr v "project" .none ∧ dump env v = .error .attributeError) := by
  obtain ⟨p, h1, k1⟩ := attr_of env .installation e v h "project" (.one (.elem .project)) (by decide)
  unfold FieldValue at k1
  simp only at k1
  split at k1
  · rename_i ch _
    obtain ⟨w2, h2, k2⟩ := attr_of env .project ch p k1 "network" (.seq (.elem .network)) (by decide)
    obtain ⟨vs, rfl, hvs⟩ := seqField env ch _ w2 _ rfl k2
    obtain ⟨nets, hnets⟩ := all2_exists (r := Spec.Dump.IsNet) vs fun v hv => by
      obtain ⟨ch, -, hc⟩ := hvs v hv
      exact isDumpNet_of env ch v hc
    exact .inl ⟨nets, p, vs, h1, h2, hnets⟩
  · split at k1
    · simp [convertAttr] at k1
    · subst k1
      refine .inr ⟨h1, ?_⟩
      unfold dump
      simp only [bind, Except.bind, getattr_attr h1]
      rfl

/-! ## Group addresses -/

theorem hexDigitOf_hexChar (u : UniTable) : ∀ n : Nat, n < 16 → u.hexDigitOf (hexChar n) = some n := by
  intro n hn
  have h1 : ∀ n : Nat, n < 16 → (hexChar n).toNat = if n < 10 then 48 + n else 87 + n := by decide +kernel
  unfold UniTable.hexDigitOf
  rw [u.ascii_decimal _ (by rw [h1 n hn]; split <;> omega), h1 n hn]
  by_cases h : n < 10
  · simp only [h, if_true]
    rw [if_pos (by omega)]
    simp
  · simp only [h, if_false]
    rw [if_neg (by omega)]
    simp only
    rw [if_pos (by omega)]
    simp

theorem hexChar_plain : ∀ n : Nat, n < 16 → hexChar n ≠ '_' ∧ hexChar n ≠ '-' ∧ hexChar n ≠ '+' ∧
    hexChar n ≠ 'x' ∧ hexChar n ≠ 'X' ∧ hexChar n ≠ ' ' ∧ (hexChar n).toNat < 128 ∧ 48 ≤ (hexChar n).toNat := by
  decide +kernel

theorem intSpace_hexChar (u : UniTable) (n : Nat) (h : n < 16) : u.intSpace (hexChar n) = false := by
  obtain ⟨-, -, -, -, -, -, h1, h2⟩ := hexChar_plain n h
  unfold UniTable.intSpace
  rw [if_pos h1]
  simp
  omega

theorem int16_two (u : UniTable) (a b : Nat) (ha : a < 16) (hb : b < 16) :
    u.int16 [hexChar a, hexChar b] = .ok ((16 * a + b : Nat) : Int) := by
  obtain ⟨a1, a2, a3, a4, a5, -⟩ := hexChar_plain a ha
  obtain ⟨b1, b2, b3, b4, b5, -⟩ := hexChar_plain b hb
  unfold UniTable.int16
  have e : (([hexChar a, hexChar b].dropWhile u.intSpace).reverse.dropWhile u.intSpace).reverse
      = [hexChar a, hexChar b] := by
    simp [List.dropWhile_cons, intSpace_hexChar u a ha, intSpace_hexChar u b hb]
  rw [e]
  have hd : u.hexDigits false 0 [hexChar a, hexChar b] = some (16 * a + b) := by
    simp [UniTable.hexDigits, a1, b1, hexDigitOf_hexChar u a ha, hexDigitOf_hexChar u b hb]
  have hbody : u.hexBody [hexChar a, hexChar b] = some (16 * a + b) := by
    simp only [UniTable.hexBody, b4, b5, or_self, and_false, if_false, hd]
  unfold UniTable.hexSigned
  simp only [a2, a3, if_false, hbody]
  rfl

theorem int16_hexByte (u : UniTable) (n : UInt8) : u.int16 ((hexByte n).drop 2) = .ok (n.toNat : Int) := by
  have h := n.toNat_lt
  show u.int16 [hexChar (n.toNat / 16), hexChar (n.toNat % 16)] = _
  rw [int16_two u _ _ (by omega) (by omega)]
  congr 2
  omega

theorem hexByte_nospace (n : UInt8) : ' ' ∉ hexByte n := by
  have h := n.toNat_lt
  have h1 := (hexChar_plain (n.toNat / 16) (by omega)).2.2.2.2.2.1
  have h2 := (hexChar_plain (n.toNat % 16) (by omega)).2.2.2.2.2.1
  unfold hexByte
  simp only [List.mem_cons, List.not_mem_nil, or_false, not_or]
  exact ⟨by decide, by decide, fun h => h1 h.symm, fun h => h2 h.symm⟩

/-- C78: a list of group addresses as Toolkit writes it is read back. -/
theorem C78_addresses (env : Env) (gs : List UInt8) (h : gs ≠ []) (l : List Int) :
    Numbers env (some (List.intercalate [' '] (gs.map hexByte))) l ↔ l = gs.map fun g => (g.toNat : Int) := by
  have hp : Parts (List.intercalate [' '] (gs.map hexByte)) (gs.map hexByte) := by
    refine ⟨by simpa using h, ?_, rfl⟩
    intro w hw
    obtain ⟨g, -, rfl⟩ := List.mem_map.1 hw
    exact hexByte_nospace g
  rw [numbers_iff]
  simp only [optStr, dumpItems, parts_unique _ _ hp]
  have : listMap (fun c => env.uni.int16 (c.drop 2)) (gs.map hexByte) = .ok (gs.map fun g => (g.toNat : Int)) := by
    clear hp h
    induction gs with
    | nil => rfl
    | cons g gs ih =>
      simp only [List.map_cons, listMap, bind, Except.bind, pure, Except.pure, ih, int16_hexByte]
  rw [this]
  constructor
  · intro h; injection h with h; exact h.symm
  · rintro rfl; rfl

/-- Values that Python refuses: an empty one, two spaces in a row, something else than a
number. Case and underscores do not matter. -/
example : Numbers .ascii (some "0x22 0x23 0xff".toList) [34, 35, 255] ∧
    Numbers .ascii (some "0xFF ..1_0 0x-1".toList) [255, 16, -1] := by
  simp only [numbers_iff]; decide +kernel

example : ¬ (∃ l, Numbers .ascii (some []) l) ∧ ¬ (∃ l, Numbers .ascii (some "0x22  0x23".toList) l) ∧
    ¬ (∃ l, Numbers .ascii (some "0x22 0xgg".toList) l) ∧ ¬ (∃ l, Numbers .ascii none l) := by
  refine ⟨?_, ?_, ?_, ?_⟩ <;> rintro ⟨l, h⟩ <;> rw [numbers_iff] at h <;>
    exact absurd h (by intro h; revert h; simp only [optStr, dumpItems]; first | (rw [show listMap _ _ = .error .valueError by decide +kernel]; simp) | simp)

/-! ## Reading the files that Toolkit writes -/

/-- How a child of an element is read. -/
theorem read_child (env : Env) (c : Cls) (ch : Elem) (tag : String) (f0 : Field) (ht : ch.tag = tag.toList)
    (ha : ∀ x ∈ tag.toList, x.toNat < 128) (hl : lookup .ascii c (normalise .ascii tag.toList) = some f0)
    (hv : ∃ v, childValue env (memberType f0.type) ch = .ok v) (f : Field)
    (hf : lookup env c (normalise env ch.tag) = some f) : ∃ v, childValue env (memberType f.type) ch = .ok v := by
  rw [ht, lookup_ascii env c _ ha, hl] at hf
  injection hf with hf
  exact hf ▸ hv

theorem paramXml_read (env : Env) (p : Str × Str) :
    ∃ v, fromElement env .pp (paramXml p) = .ok v ∧ IsParam v (some p.1, some p.2) := by
  have hv : ∃ v, fromElement env .pp (paramXml p) = .ok v := by
    apply (C76_readable env .pp _).2
    intro f hf
    refine ⟨fun kv hkv _ => ?_, fun ch hch => by cases hch⟩
    simp only [fields, List.mem_cons, List.not_mem_nil, or_false] at hf
    rcases hf with rfl | rfl <;> exact ⟨_, rfl⟩
  obtain ⟨v, hv⟩ := hv
  have key : ∀ (n : String) (t : Str), (⟨n.toList, .one .text⟩ : Field) ∈ fields .pp →
      attrsOf env ⟨n.toList, .one .text⟩ (paramXml p).attrib = [(t, if n = "name" then p.1 else p.2)] →
      Attr v n (.str (if n = "name" then p.1 else p.2)) := by
    intro n t hf ha
    obtain ⟨w, h1, h2⟩ := attr_of env .pp _ v hv n _ hf
    unfold FieldValue at h2
    have hc : childrenOf env ⟨n.toList, .one .text⟩ (paramXml p).children = [] := rfl
    simp only [named_children, named_attrs, hc, List.getLast?_nil, ha, List.getLast?_singleton] at h2
    rw [convertAttr_text env _ w h2] at h1
    exact h1
  have nn : ∀ n : String, (∀ x ∈ n.toList, x.toNat < 128) → normalise env n.toList = normalise .ascii n.toList :=
    fun n h => normalise_ascii env _ h
  have e1 := nn "Name" (by decide)
  have e2 := nn "Value" (by decide)
  have e3 := nn "name" (by decide)
  have e4 := nn "value" (by decide)
  refine ⟨v, hv, ?_, ?_⟩
  · refine key "name" "Name".toList (by decide) ?_
    simp only [attrsOf, paramXml, Elem.attrib, List.filter_cons, List.filter_nil, e1, e2, e3]
    rw [if_pos (by decide +kernel), if_neg (by decide +kernel)]
    rfl
  · refine key "value" "Value".toList (by decide) ?_
    simp only [attrsOf, paramXml, Elem.attrib, List.filter_cons, List.filter_nil, e1, e2, e4]
    rw [if_neg (by decide +kernel), if_pos (by decide +kernel)]
    rfl

theorem unitXml_read (env : Env) (u : UnitFile) :
    ∃ v, fromElement env .unit (unitXml u) = .ok v ∧ IsUnit v ⟨some u.address, some (shown u.name),
      some (shown u.unitType), some (shown u.unitName), some (shown u.serial), some (shown u.catalog),
      (u.params ++ groupParam u.groups).map fun p => (some p.1, some p.2)⟩ := by
  have hv : ∃ v, fromElement env .unit (unitXml u) = .ok v := by
    apply readable_of env .unit _ rfl
    intro ch hch
    simp only [unitXml, Elem.children, List.mem_cons, List.mem_map] at hch
    rcases hch with rfl | rfl | rfl | rfl | rfl | rfl | ⟨p, -, rfl⟩
    · exact read_child env .unit _ "TagName" ⟨"tag_name".toList, .one .text⟩ rfl (by decide) (by decide +kernel)
        ⟨_, textElem_text env _ _⟩
    · exact read_child env .unit _ "Address" ⟨"address".toList, .one .int⟩ rfl (by decide) (by decide +kernel)
        ⟨_, textElem_int env _ _⟩
    · exact read_child env .unit _ "UnitType" ⟨"unit_type".toList, .one .text⟩ rfl (by decide) (by decide +kernel)
        ⟨_, textElem_text env _ _⟩
    · exact read_child env .unit _ "UnitName" ⟨"unit_name".toList, .one .text⟩ rfl (by decide) (by decide +kernel)
        ⟨_, textElem_text env _ _⟩
    · exact read_child env .unit _ "SerialNumber" ⟨"serial_number".toList, .one .text⟩ rfl (by decide)
        (by decide +kernel) ⟨_, textElem_text env _ _⟩
    · exact read_child env .unit _ "CatalogNumber" ⟨"catalog_number".toList, .one .text⟩ rfl (by decide)
        (by decide +kernel) ⟨_, textElem_text env _ _⟩
    · obtain ⟨w, hw, -⟩ := paramXml_read env p
      exact read_child env .unit _ "PP" ⟨"pp".toList, .seq (.elem .pp)⟩ rfl (by decide) (by decide +kernel) ⟨w, hw⟩
  obtain ⟨v, hv⟩ := hv
  have ch : ∀ (f : Field), f ∈ fields .unit → ∀ b1 b2 b3 b4 b5 b6 b7,
      decide (normalise .ascii "TagName".toList = normalise .ascii f.name) = b1 →
      decide (normalise .ascii "Address".toList = normalise .ascii f.name) = b2 →
      decide (normalise .ascii "UnitType".toList = normalise .ascii f.name) = b3 →
      decide (normalise .ascii "UnitName".toList = normalise .ascii f.name) = b4 →
      decide (normalise .ascii "SerialNumber".toList = normalise .ascii f.name) = b5 →
      decide (normalise .ascii "CatalogNumber".toList = normalise .ascii f.name) = b6 →
      decide (normalise .ascii "PP".toList = normalise .ascii f.name) = b7 →
      childrenOf env f (unitXml u).children =
        (if b1 then [textElem "TagName" u.name] else []) ++
        ((if b2 then [textElem "Address" (toString u.address).toList] else []) ++
        ((if b3 then [textElem "UnitType" u.unitType] else []) ++
        ((if b4 then [textElem "UnitName" u.unitName] else []) ++
        ((if b5 then [textElem "SerialNumber" u.serial] else []) ++
        ((if b6 then [textElem "CatalogNumber" u.catalog] else []) ++
        (if b7 then (u.params ++ groupParam u.groups).map paramXml else [])))))) := by
    intro f hf b1 b2 b3 b4 b5 b6 b7 h1 h2 h3 h4 h5 h6 h7
    simp only [unitXml, Elem.children]
    rw [childrenOf_cons env .unit f hf _ _ "TagName" b1 rfl (by decide) h1,
      childrenOf_cons env .unit f hf _ _ "Address" b2 rfl (by decide) h2,
      childrenOf_cons env .unit f hf _ _ "UnitType" b3 rfl (by decide) h3,
      childrenOf_cons env .unit f hf _ _ "UnitName" b4 rfl (by decide) h4,
      childrenOf_cons env .unit f hf _ _ "SerialNumber" b5 rfl (by decide) h5,
      childrenOf_cons env .unit f hf _ _ "CatalogNumber" b6 rfl (by decide) h6,
      childrenOf_map env .unit f hf paramXml "PP".toList (fun _ => rfl) b7 (by decide) h7]
    cases b1 <;> cases b2 <;> cases b3 <;> cases b4 <;> cases b5 <;> cases b6 <;> rfl
  refine ⟨v, hv, ?_, ?_, ?_, ?_, ?_, ?_, ?_⟩
  · exact attr_one env .unit _ v hv "address" .int (by decide) (textElem "Address" (toString u.address).toList)
      (ch _ (by decide) false true false false false false false (by decide +kernel) (by decide +kernel)
        (by decide +kernel) (by decide +kernel) (by decide +kernel) (by decide +kernel) (by decide +kernel)) _
      (textElem_int env _ _)
  · exact attr_one env .unit _ v hv "tag_name" .text (by decide) (textElem "TagName" u.name)
      (ch _ (by decide) true false false false false false false (by decide +kernel) (by decide +kernel)
        (by decide +kernel) (by decide +kernel) (by decide +kernel) (by decide +kernel) (by decide +kernel)) _
      (textElem_text env _ _)
  · exact attr_one env .unit _ v hv "unit_type" .text (by decide) (textElem "UnitType" u.unitType)
      (ch _ (by decide) false false true false false false false (by decide +kernel) (by decide +kernel)
        (by decide +kernel) (by decide +kernel) (by decide +kernel) (by decide +kernel) (by decide +kernel)) _
      (textElem_text env _ _)
  · exact attr_one env .unit _ v hv "unit_name" .text (by decide) (textElem "UnitName" u.unitName)
      (ch _ (by decide) false false false true false false false (by decide +kernel) (by decide +kernel)
        (by decide +kernel) (by decide +kernel) (by decide +kernel) (by decide +kernel) (by decide +kernel)) _
      (textElem_text env _ _)
  · exact attr_one env .unit _ v hv "serial_number" .text (by decide) (textElem "SerialNumber" u.serial)
      (ch _ (by decide) false false false false true false false (by decide +kernel) (by decide +kernel)
        (by decide +kernel) (by decide +kernel) (by decide +kernel) (by decide +kernel) (by decide +kernel)) _
      (textElem_text env _ _)
  · exact attr_one env .unit _ v hv "catalog_number" .text (by decide) (textElem "CatalogNumber" u.catalog)
      (ch _ (by decide) false false false false false true false (by decide +kernel) (by decide +kernel)
        (by decide +kernel) (by decide +kernel) (by decide +kernel) (by decide +kernel) (by decide +kernel)) _
      (textElem_text env _ _)
  · obtain ⟨vs, h1, h2⟩ := attr_seq env .unit _ v hv "pp" .pp (by decide) paramXml (u.params ++ groupParam u.groups)
      (fun v p => IsParam v (some p.1, some p.2))
      (ch _ (by decide) false false false false false false true (by decide +kernel) (by decide +kernel)
        (by decide +kernel) (by decide +kernel) (by decide +kernel) (by decide +kernel) (by decide +kernel))
      (by
        intro p _ w hw
        obtain ⟨v', hv', hp⟩ := paramXml_read env p
        rw [hw] at hv'
        injection hv' with hv'
        exact hv' ▸ hp)
    exact ⟨vs, h1, all2_map _ _ _ h2⟩

theorem dumpAppXml_read (env : Env) (a : AppFile) :
    ∃ v, fromElement env .application (Spec.Dump.appXml a) = .ok v ∧ Spec.Dump.IsApp v ⟨some a.address,
      some (shown a.name), some (shown a.description), a.groups.map describeGroup⟩ := by
  have hv : ∃ v, fromElement env .application (Spec.Dump.appXml a) = .ok v := by
    apply readable_of env .application _ rfl
    intro ch hch
    simp only [Spec.Dump.appXml, Elem.children, List.mem_cons, List.mem_map] at hch
    rcases hch with rfl | rfl | rfl | ⟨p, -, rfl⟩
    · exact read_child env .application _ "TagName" ⟨"tag_name".toList, .one .text⟩ rfl (by decide)
        (by decide +kernel) ⟨_, textElem_text env _ _⟩
    · exact read_child env .application _ "Address" ⟨"address".toList, .one .int⟩ rfl (by decide)
        (by decide +kernel) ⟨_, textElem_int env _ _⟩
    · exact read_child env .application _ "Description" ⟨"description".toList, .one .text⟩ rfl (by decide)
        (by decide +kernel) ⟨_, textElem_text env _ _⟩
    · obtain ⟨w, hw, -⟩ := groupXml_read env p
      exact read_child env .application _ "Group" ⟨"groups".toList, .seq (.elem .group)⟩ rfl (by decide)
        (by decide +kernel) ⟨w, hw⟩
  obtain ⟨v, hv⟩ := hv
  have ch : ∀ (f : Field), f ∈ fields .application → ∀ b1 b2 b3 b7,
      decide (normalise .ascii "TagName".toList = normalise .ascii f.name) = b1 →
      decide (normalise .ascii "Address".toList = normalise .ascii f.name) = b2 →
      decide (normalise .ascii "Description".toList = normalise .ascii f.name) = b3 →
      decide (normalise .ascii "Group".toList = normalise .ascii f.name) = b7 →
      childrenOf env f (Spec.Dump.appXml a).children =
        (if b1 then [textElem "TagName" a.name] else []) ++
        ((if b2 then [textElem "Address" (toString a.address).toList] else []) ++
        ((if b3 then [textElem "Description" a.description] else []) ++
        (if b7 then a.groups.map groupXml else []))) := by
    intro f hf b1 b2 b3 b7 h1 h2 h3 h7
    simp only [Spec.Dump.appXml, Elem.children]
    rw [childrenOf_cons env .application f hf _ _ "TagName" b1 rfl (by decide) h1,
      childrenOf_cons env .application f hf _ _ "Address" b2 rfl (by decide) h2,
      childrenOf_cons env .application f hf _ _ "Description" b3 rfl (by decide) h3,
      childrenOf_map env .application f hf groupXml "Group".toList (fun _ => rfl) b7 (by decide) h7]
    cases b1 <;> cases b2 <;> cases b3 <;> rfl
  refine ⟨v, hv, ?_, ?_, ?_, ?_⟩
  · exact attr_one env .application _ v hv "address" .int (by decide) (textElem "Address" (toString a.address).toList)
      (ch _ (by decide) false true false false (by decide +kernel) (by decide +kernel) (by decide +kernel)
        (by decide +kernel)) _ (textElem_int env _ _)
  · exact attr_one env .application _ v hv "tag_name" .text (by decide) (textElem "TagName" a.name)
      (ch _ (by decide) true false false false (by decide +kernel) (by decide +kernel) (by decide +kernel)
        (by decide +kernel)) _ (textElem_text env _ _)
  · exact attr_one env .application _ v hv "description" .text (by decide) (textElem "Description" a.description)
      (ch _ (by decide) false false true false (by decide +kernel) (by decide +kernel) (by decide +kernel)
        (by decide +kernel)) _ (textElem_text env _ _)
  · obtain ⟨vs, h1, h2⟩ := attr_seq env .application _ v hv "groups" .group (by decide) groupXml a.groups
      (fun v g => IsGroup v (describeGroup g))
      (ch _ (by decide) false false false true (by decide +kernel) (by decide +kernel) (by decide +kernel)
        (by decide +kernel))
      (by
        intro g _ w hw
        obtain ⟨v', hv', hg⟩ := groupXml_read env g
        rw [hw] at hv'
        injection hv' with hv'
        exact hv' ▸ hg)
    exact ⟨vs, h1, all2_map _ _ _ h2⟩

/-! ## Dumping them -/

theorem dictSet_new {κ α : Type} [DecidableEq κ] (d : List (κ × α)) (k : κ) (v : α) (h : k ∉ d.map (·.1)) :
    dictSet d k v = d ++ [(k, v)] := by
  unfold dictSet
  rw [if_neg]
  intro hc
  obtain ⟨p, hp, e⟩ := List.any_eq_true.1 hc
  exact h (List.mem_map.2 ⟨p, hp, by simpa using e⟩)

/-- With different addresses, the dictionary lists the items in order. -/
theorem dumpTable_distinct {α : Type} (f : CVal → Py JVal) (key : α → Int) (g : α → JVal) :
    ∀ (ws : List CVal) (xs : List α),
      All2 (fun w x => Attr w "address" (.int (key x)) ∧ f w = .ok (g x)) ws xs →
      ∀ d0 : List (Option Int × JVal), (xs.map key).Nodup → (∀ x ∈ xs, some (key x) ∉ d0.map (·.1)) →
      dumpTable f d0 ws = .ok (d0 ++ xs.map fun x => (some (key x), g x))
  | [], [], _, d0, _, _ => by simp [dumpTable]
  | [], _ :: _, h, _, _, _ => h.elim
  | _ :: _, [], h, _, _, _ => h.elim
  | w :: ws, x :: xs, ⟨⟨h1, h2⟩, ha⟩, d0, hn, hd => by
    unfold dumpTable
    simp only [bind, Except.bind, getattr_attr h1, keyOf, h2]
    rw [List.map_cons, List.nodup_cons] at hn
    rw [dictSet_new d0 _ _ (hd x List.mem_cons_self), dumpTable_distinct f key g ws xs ha _ hn.2]
    · simp
    · intro y hy
      rw [List.map_append, List.mem_append]
      rintro (h | h)
      · exact hd y (List.mem_cons_of_mem _ hy) h
      · simp only [List.map_cons, List.map_nil, List.mem_singleton, Option.some.injEq] at h
        exact hn.1 (List.mem_map.2 ⟨y, hy, h⟩)

theorem jsonDict_map {α : Type} (key : α → Int) (g : α → JVal) (xs : List α) :
    jsonDict (xs.map fun x => (some (key x), g x)) = .obj (xs.map fun x => ((toString (key x)).toList, g x)) := by
  unfold jsonDict
  rw [List.map_map]
  congr 1
  apply List.map_congr_left
  intro x _
  simp only [Function.comp, keyStr, intStr_toString]

theorem all2_imp {α β : Type} {r q : α → β → Prop} : ∀ (vs : List α) (xs : List β),
    (∀ v x, x ∈ xs → r v x → q v x) → All2 r vs xs → All2 q vs xs
  | [], [], _, _ => trivial
  | [], _ :: _, _, h => h.elim
  | _ :: _, [], _, h => h.elim
  | v :: vs, x :: xs, hi, ⟨h1, h2⟩ =>
    ⟨hi v x List.mem_cons_self h1, all2_imp vs xs (fun v y hy => hi v y (List.mem_cons_of_mem _ hy)) h2⟩

theorem all2_unmap {α β : Type} {r : CVal → β → Prop} (g : α → β) : ∀ (vs : List CVal) (l : List α),
    All2 r vs (l.map g) → All2 (fun v x => r v (g x)) vs l
  | [], [], _ => trivial
  | [], _ :: _, h => h.elim
  | _ :: _, [], h => h.elim
  | _ :: vs, _ :: l, ⟨h1, h2⟩ => ⟨h1, all2_unmap g vs l h2⟩

theorem dumpApp_file (v : CVal) (a : AppFile) (hn : (a.groups.map (·.1)).Nodup)
    (h : Spec.Dump.IsApp v ⟨some a.address, some (shown a.name), some (shown a.description),
      a.groups.map describeGroup⟩) : dumpApp v = .ok (appJson a) := by
  obtain ⟨h1, h2, h3, gs, h4, h5⟩ := h
  have hd : dumpGroups [] gs = .ok (a.groups.map fun g => (some g.1, .str (shown g.2))) := by
    rw [dumpGroups_eq]
    have := dumpTable_distinct (fun g => jattr g "tag_name") (fun g : Int × Str => g.1)
      (fun g => .str (shown g.2)) gs a.groups
      (all2_imp _ _ (fun v x _ hg => ⟨hg.1, jattr_str hg.2⟩) (all2_unmap _ _ _ h5)) [] hn (by simp)
    simpa using this
  unfold dumpApp
  simp only [bind, Except.bind, pure, Except.pure, jattr_str h2, jattr_int h1, jattr_str h3, getattr_attr h4, iter, hd,
    jsonDict_map (fun g : Int × Str => g.1)]
  rfl

/-- The further parameters of the units have other names. -/
def OtherParams (u : UnitFile) : Prop := ∀ p ∈ u.params, p.1 ≠ "GroupAddress".toList

theorem unitGroups_file (env : Env) (u : UnitFile) (ho : OtherParams u) (l : List Int) :
    UnitGroups env ((u.params ++ groupParam u.groups).map fun p => (some p.1, some p.2)) l ↔
      l = u.groups.map fun g => (g.toNat : Int) := by
  have key : ∀ ps : List (Str × Str), (∀ p ∈ ps, p.1 ≠ "GroupAddress".toList) →
      (UnitGroups env ((ps ++ groupParam u.groups).map fun p => (some p.1, some p.2)) l ↔
        l = u.groups.map fun g => (g.toNat : Int)) := by
    intro ps
    induction ps with
    | nil =>
      intro _
      unfold groupParam
      split
      · rename_i e
        simp [UnitGroups, e]
      · rename_i e
        simp only [List.nil_append, List.map_cons, List.map_nil, UnitGroups]
        constructor
        · rintro (⟨-, l1, l2, rfl, h1, rfl⟩ | ⟨h, -⟩)
          · rw [(C78_addresses env _ e _).1 h1]; simp
          · exact absurd rfl h
        · rintro rfl
          exact .inl ⟨trivial, _, [], by simp, (C78_addresses env _ e _).2 rfl, rfl⟩
    | cons p ps ih =>
      intro hp
      rw [List.cons_append, List.map_cons]
      unfold UnitGroups
      rw [ih fun q hq => hp q (List.mem_cons_of_mem _ hq)]
      have hne : some p.1 ≠ some "GroupAddress".toList := by
        intro e; injection e with e; exact hp p List.mem_cons_self e
      simp only [ne_eq, hne, not_false_eq_true, true_and, false_and, false_or]
  exact key u.params ho

theorem dumpUnit_file (env : Env) (v : CVal) (u : UnitFile) (ho : OtherParams u)
    (h : IsUnit v ⟨some u.address, some (shown u.name), some (shown u.unitType), some (shown u.unitName),
      some (shown u.serial), some (shown u.catalog),
      (u.params ++ groupParam u.groups).map fun p => (some p.1, some p.2)⟩) :
    dumpUnit env v = .ok (unitJson u) := by
  obtain ⟨h1, h2⟩ := dumpUnit_json env v _ h
  obtain ⟨j, hj⟩ := h2.2 ⟨_, (unitGroups_file env u ho _).2 rfl⟩
  rw [hj]
  obtain ⟨l, hl, rfl⟩ := h1 j hj
  rw [(unitGroups_file env u ho l).1 hl]
  simp only [unitJson, jStr, jInt, List.map_map]
  rfl

theorem dumpNet_file (env : Env) (n : NetFile) (ha : (n.apps.map AppFile.address).Nodup)
    (hu : (n.units.map UnitFile.address).Nodup) (hg : ∀ a ∈ n.apps, (a.groups.map (·.1)).Nodup)
    (ho : ∀ u ∈ n.units, OtherParams u) :
    ∃ v, fromElement env .network (Spec.Dump.netXml n) = .ok v ∧ Attr v "address" (.int n.address) ∧
      dumpNet env v = .ok (netJson n) := by
  have hv : ∃ v, fromElement env .network (Spec.Dump.netXml n) = .ok v := by
    apply readable_of env .network _ rfl
    intro ch hch
    simp only [Spec.Dump.netXml, Elem.children, List.mem_cons, List.mem_append, List.mem_map] at hch
    rcases hch with rfl | rfl | rfl | rfl | ⟨a, -, rfl⟩ | ⟨u, -, rfl⟩
    · exact read_child env .network _ "TagName" ⟨"tag_name".toList, .one .text⟩ rfl (by decide)
        (by decide +kernel) ⟨_, textElem_text env _ _⟩
    · exact read_child env .network _ "Address" ⟨"address".toList, .one .int⟩ rfl (by decide)
        (by decide +kernel) ⟨_, textElem_int env _ _⟩
    · exact read_child env .network _ "NetworkNumber" ⟨"network_number".toList, .one .int⟩ rfl (by decide)
        (by decide +kernel) ⟨_, textElem_int env _ _⟩
    · obtain ⟨w, hw, -⟩ := interfaceXml_read env n.interfaceType
      exact read_child env .network _ "Interface" ⟨"interface".toList, .one (.elem .interface)⟩ rfl (by decide)
        (by decide +kernel) ⟨w, hw⟩
    · obtain ⟨w, hw, -⟩ := dumpAppXml_read env a
      exact read_child env .network _ "Application" ⟨"applications".toList, .seq (.elem .application)⟩ rfl (by decide)
        (by decide +kernel) ⟨w, hw⟩
    · obtain ⟨w, hw, -⟩ := unitXml_read env u
      exact read_child env .network _ "Unit" ⟨"units".toList, .seq (.elem .unit)⟩ rfl (by decide)
        (by decide +kernel) ⟨w, hw⟩
  obtain ⟨v, hv⟩ := hv
  have ch : ∀ (f : Field), f ∈ fields .network → ∀ b1 b2 b3 b4 b5 b6,
      decide (normalise .ascii "TagName".toList = normalise .ascii f.name) = b1 →
      decide (normalise .ascii "Address".toList = normalise .ascii f.name) = b2 →
      decide (normalise .ascii "NetworkNumber".toList = normalise .ascii f.name) = b3 →
      decide (normalise .ascii "Interface".toList = normalise .ascii f.name) = b4 →
      decide (normalise .ascii "Application".toList = normalise .ascii f.name) = b5 →
      decide (normalise .ascii "Unit".toList = normalise .ascii f.name) = b6 →
      childrenOf env f (Spec.Dump.netXml n).children =
        (if b1 then [textElem "TagName" n.name] else []) ++
        ((if b2 then [textElem "Address" (toString n.address).toList] else []) ++
        ((if b3 then [textElem "NetworkNumber" (toString n.number).toList] else []) ++
        ((if b4 then [.mk "Interface".toList [] none [textElem "InterfaceType" n.interfaceType]] else []) ++
        ((if b5 then n.apps.map Spec.Dump.appXml else []) ++
        (if b6 then n.units.map unitXml else []))))) := by
    intro f hf b1 b2 b3 b4 b5 b6 h1 h2 h3 h4 h5 h6
    simp only [Spec.Dump.netXml, Elem.children]
    have happ : childrenOf env f (n.apps.map Spec.Dump.appXml ++ n.units.map unitXml)
        = childrenOf env f (n.apps.map Spec.Dump.appXml) ++ childrenOf env f (n.units.map unitXml) := by
      unfold childrenOf; rw [List.filter_append]
    rw [childrenOf_cons env .network f hf _ _ "TagName" b1 rfl (by decide) h1,
      childrenOf_cons env .network f hf _ _ "Address" b2 rfl (by decide) h2,
      childrenOf_cons env .network f hf _ _ "NetworkNumber" b3 rfl (by decide) h3,
      childrenOf_cons env .network f hf _ _ "Interface" b4 rfl (by decide) h4, happ,
      childrenOf_map env .network f hf Spec.Dump.appXml "Application".toList (fun _ => rfl) b5 (by decide) h5,
      childrenOf_map env .network f hf unitXml "Unit".toList (fun _ => rfl) b6 (by decide) h6]
    cases b1 <;> cases b2 <;> cases b3 <;> cases b4 <;> rfl
  have g1 : Attr v "address" (.int n.address) :=
    attr_one env .network _ v hv "address" .int (by decide) (textElem "Address" (toString n.address).toList)
      (ch _ (by decide) false true false false false false (by decide +kernel) (by decide +kernel) (by decide +kernel)
        (by decide +kernel) (by decide +kernel) (by decide +kernel)) _ (textElem_int env _ _)
  have g2 : Attr v "tag_name" (optStr (some (shown n.name))) :=
    attr_one env .network _ v hv "tag_name" .text (by decide) (textElem "TagName" n.name)
      (ch _ (by decide) true false false false false false (by decide +kernel) (by decide +kernel) (by decide +kernel)
        (by decide +kernel) (by decide +kernel) (by decide +kernel)) _ (textElem_text env _ _)
  have g3 : Attr v "network_number" (optInt (some n.number)) :=
    attr_one env .network _ v hv "network_number" .int (by decide)
      (textElem "NetworkNumber" (toString n.number).toList)
      (ch _ (by decide) false false true false false false (by decide +kernel) (by decide +kernel) (by decide +kernel)
        (by decide +kernel) (by decide +kernel) (by decide +kernel)) _ (textElem_int env _ _)
  obtain ⟨as, g4, g5⟩ := attr_seq env .network _ v hv "applications" .application (by decide) Spec.Dump.appXml n.apps
    (fun v a => Attr v "address" (.int a.address) ∧ dumpApp v = .ok (appJson a))
    (by
      rw [ch _ (by decide) false false false false true false (by decide +kernel) (by decide +kernel)
        (by decide +kernel) (by decide +kernel) (by decide +kernel) (by decide +kernel)]
      simp)
    (by
      intro a hm w hw
      obtain ⟨v', hv', hg'⟩ := dumpAppXml_read env a
      rw [hw] at hv'
      injection hv' with hv'
      subst hv'
      exact ⟨hg'.1, dumpApp_file w a (hg a hm) hg'⟩)
  obtain ⟨us, g6, g7⟩ := attr_seq env .network _ v hv "units" .unit (by decide) unitXml n.units
    (fun v u => Attr v "address" (.int u.address) ∧ dumpUnit env v = .ok (unitJson u))
    (ch _ (by decide) false false false false false true (by decide +kernel) (by decide +kernel) (by decide +kernel)
      (by decide +kernel) (by decide +kernel) (by decide +kernel))
    (by
      intro u hm w hw
      obtain ⟨v', hv', hg'⟩ := unitXml_read env u
      rw [hw] at hv'
      injection hv' with hv'
      subst hv'
      exact ⟨hg'.1, dumpUnit_file env w u (ho u hm) hg'⟩)
  have d1 := dumpTable_distinct dumpApp AppFile.address appJson as n.apps g5 [] ha (by simp)
  have d2 := dumpTable_distinct (dumpUnit env) UnitFile.address unitJson us n.units g7 [] hu (by simp)
  refine ⟨v, hv, g1, ?_⟩
  have g1' : Attr v "address" (optInt (some n.address)) := g1
  unfold dumpNet
  simp only [bind, Except.bind, pure, Except.pure, jattr_str g2, jattr_int g1', jattr_int g3, getattr_attr g4,
    getattr_attr g6, iter, d1, d2, List.nil_append, jsonDict_map]
  rfl

/-- C78: the dump of a file in which nothing has the address of something else of its
kind is this JSON object, item by item and in order. -/
theorem C78_file (env : Env) (version name : Str) (nets : List NetFile) (hd : Distinct nets)
    (ho : ∀ n ∈ nets, ∀ u ∈ n.units, OtherParams u) :
    ∃ v, open' env .path (.plain (.ok (projectXml version name nets))) = some (.ok v) ∧
      dump env v = .ok (projectJson nets) := by
  have hnet : ∀ n ∈ nets, ∃ v, fromElement env .network (Spec.Dump.netXml n) = .ok v ∧
      Attr v "address" (.int n.address) ∧ dumpNet env v = .ok (netJson n) := fun n hn =>
    dumpNet_file env n (hd.2 n hn).1 (hd.2 n hn).2.1 (hd.2 n hn).2.2 (ho n hn)
  have hp : ∃ p, fromElement env .project
      (.mk "Project".toList [] none (textElem "TagName" name :: nets.map Spec.Dump.netXml)) = .ok p := by
    apply readable_of env .project _ rfl
    intro ch hch
    simp only [Elem.children, List.mem_cons, List.mem_map] at hch
    rcases hch with rfl | ⟨n, hn, rfl⟩
    · exact read_child env .project _ "TagName" ⟨"tag_name".toList, .one .text⟩ rfl (by decide)
        (by decide +kernel) ⟨_, textElem_text env _ _⟩
    · obtain ⟨w, hw, -⟩ := hnet n hn
      exact read_child env .project _ "Network" ⟨"network".toList, .seq (.elem .network)⟩ rfl (by decide)
        (by decide +kernel) ⟨w, hw⟩
  obtain ⟨p, hp⟩ := hp
  obtain ⟨ns, p1, p2⟩ := attr_seq env .project _ p hp "network" .network (by decide) Spec.Dump.netXml nets
    (fun v n => Attr v "address" (.int n.address) ∧ dumpNet env v = .ok (netJson n)) (by
      simp only [Elem.children]
      rw [childrenOf_cons env .project _ (by decide) _ _ "TagName" false rfl (by decide) (by decide +kernel),
        childrenOf_map env .project _ (by decide) Spec.Dump.netXml "Network".toList (fun _ => rfl) true (by decide)
          (by decide +kernel)]
      rfl) (by
      intro n hn w hw
      obtain ⟨v', hv', h⟩ := hnet n hn
      rw [hw] at hv'
      injection hv' with hv'
      exact hv' ▸ h)
  have hv : ∃ v, fromElement env .installation (projectXml version name nets) = .ok v := by
    apply readable_of env .installation _ rfl
    intro ch hch
    simp only [projectXml, Elem.children, List.mem_cons, List.not_mem_nil, or_false] at hch
    rcases hch with rfl | rfl
    · exact read_child env .installation _ "Version" ⟨"version".toList, .one .text⟩ rfl (by decide)
        (by decide +kernel) ⟨_, textElem_text env _ _⟩
    · exact read_child env .installation _ "Project" ⟨"project".toList, .one (.elem .project)⟩ rfl (by decide)
        (by decide +kernel) ⟨p, hp⟩
  obtain ⟨v, hv⟩ := hv
  have hpr : Attr v "project" p := by
    refine attr_one env .installation _ v hv "project" (.elem .project) (by decide) _ ?_ _ hp
    simp only [projectXml, Elem.children]
    rw [childrenOf_cons env .installation _ (by decide) _ _ "Version" false rfl (by decide) (by decide +kernel),
      childrenOf_cons env .installation _ (by decide) _ _ "Project" true rfl (by decide) (by decide +kernel)]
    rfl
  refine ⟨v, ?_, ?_⟩
  · show some (fromElement env .installation (projectXml version name nets)) = _
    rw [hv]
  · have d := dumpTable_distinct (dumpNet env) NetFile.address netJson ns nets p2 [] hd.1 (by simp)
    unfold dump
    simp only [bind, Except.bind, pure, Except.pure, getattr_attr hpr, getattr_attr p1, iter, d, List.nil_append,
      jsonDict_map]
    rfl

/-- A project with two networks, two applications and two units, one of them with
two unused channels. -/
def exampleProject : List NetFile :=
  [⟨254, "Local".toList, 254, "serial".toList,
    [⟨56, "Lighting".toList, "d".toList, [(34, "Kitchen".toList), (35, [])]⟩, ⟨202, "Trigger".toList, [], []⟩],
    [⟨4, "Relay".toList, "RELDN4".toList, "RELAY1".toList, "100".toList, "L5504".toList, [34, 35, 255, 255],
        [("Unused".toList, "0x1".toList)]⟩,
      ⟨12, "Panel".toList, "KEYM4".toList, "PANEL".toList, "101".toList, "5084NL".toList, [34], []⟩]⟩,
   ⟨253, "Bridge".toList, 253, "bridge".toList, [], []⟩]

example : Distinct exampleProject ∧ ∀ n ∈ exampleProject, ∀ u ∈ n.units, OtherParams u := by
  unfold Distinct OtherParams
  decide +kernel

/-- Repeated addresses: the last one counts, at the place of the first. -/
example : (dump .ascii (.obj .installation [("project".toList, .obj .project [("network".toList, .list [
    .obj .network [("tag_name".toList, .str ['a']), ("address".toList, .int 1), ("network_number".toList, .none),
      ("applications".toList, .list []), ("units".toList, .list [])],
    .obj .network [("tag_name".toList, .str ['b']), ("address".toList, .none), ("network_number".toList, .none),
      ("applications".toList, .list []), ("units".toList, .list [])],
    .obj .network [("tag_name".toList, .str ['c']), ("address".toList, .int 1), ("network_number".toList, .int 7),
      ("applications".toList, .list []), ("units".toList, .list [])]])])])) =
    .ok (.obj [
      (['1'], .obj [("name".toList, .str ['c']), ("address".toList, .num (.int 1)), ("networknumber".toList, .num (.int 7)),
        ("applications".toList, .obj []), ("units".toList, .obj [])]),
      ("null".toList, .obj [("name".toList, .str ['b']), ("address".toList, .null), ("networknumber".toList, .null),
        ("applications".toList, .obj []), ("units".toList, .obj [])])]) := by decide +kernel

/-! ## C81: the output file -/

/-- The claim: unless the dump succeeds, an existing output file is left alone. -/
def C81_claim : Prop :=
  ∀ (env : Env) (pretty : Option Int) (input : File),
    (dumpMain env pretty input).1 ≠ .done → (dumpMain env pretty input).2 = .old

/-- A project with a unit whose parameter `GroupAddress` is empty. -/
def emptyChannels : Elem :=
  .mk "Installation".toList [] none [.mk "Project".toList [] none [.mk "Network".toList [] none [
    .mk "Unit".toList [] none [paramXml ("GroupAddress".toList, [])]]]]

/-- C81 is false: the file is emptied before the dump is made. -/
theorem C81_false : ¬ C81_claim := by
  intro h
  have := h .ascii none (.plain (.ok emptyChannels)) (by decide +kernel)
  revert this
  decide +kernel

/-- C81, the part that holds: nothing is done to the output file if the command line is
refused or the input cannot be read, and otherwise it is written or emptied. Missing:
a dump that fails, for which it is false. -/
theorem C81_output_partial (env : Env) (pretty : Option Int) (input : File) :
    ((∃ p, pretty = some p ∧ p < 0) → dumpMain env pretty input = (.usage, .old)) ∧
    ((∀ p, pretty = some p → 0 ≤ p) →
      (open' env .path input = none → dumpMain env pretty input = (.cbzError, .old)) ∧
      (∀ e, open' env .path input = some (.error e) → dumpMain env pretty input = (.error e, .old)) ∧
      ∀ v, open' env .path input = some (.ok v) →
        (∀ e, dump env v = .error e → dumpMain env pretty input = (.error e, .empty)) ∧
        ∀ j, dump env v = .ok j → ∃ indent, dumpMain env pretty input = (.done, .json indent j) ∧
          ∀ i, indent = some i ↔ pretty = some i ∧ 0 < i) := by
  constructor
  · rintro ⟨p, rfl, hp⟩
    unfold dumpMain
    simp only
    rw [if_neg (by omega), if_pos hp]
  · intro hp
    cases pretty with
    | none =>
      refine ⟨fun h => ?_, fun e h => ?_, fun v h => ⟨fun e hd => ?_, fun j hd => ⟨none, ?_, by simp⟩⟩⟩ <;>
        simp only [dumpMain, *]
    | some p =>
      have := hp p rfl
      by_cases hz : p = 0
      · subst hz
        refine ⟨fun h => ?_, fun e h => ?_, fun v h => ⟨fun e hd => ?_, fun j hd => ⟨none, ?_, ?_⟩⟩⟩
        · simp only [dumpMain, if_true, h]
        · simp only [dumpMain, if_true, h]
        · simp only [dumpMain, if_true, h, hd]
        · simp only [dumpMain, if_true, h, hd]
        · intro i
          simp only [reduceCtorEq, Option.some.injEq, false_iff, not_and]
          rintro rfl; omega
      · have hn : ¬ p < 0 := by omega
        refine ⟨fun h => ?_, fun e h => ?_, fun v h => ⟨fun e hd => ?_, fun j hd => ⟨some p, ?_, ?_⟩⟩⟩
        · simp only [dumpMain, hz, hn, if_false, h]
        · simp only [dumpMain, hz, hn, if_false, h]
        · simp only [dumpMain, hz, hn, if_false, h, hd]
        · simp only [dumpMain, hz, hn, if_false, h, hd]
        · intro i
          simp only [Option.some.injEq]
          omega

end CBus.Props
