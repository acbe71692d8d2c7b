import Verif.Props.DumpFile

/-! # C79, C80: the graph of a dump -/

namespace CBus.Props
open CBus CBus.Cbz CBus.Spec.Cbz
open CBus.Spec.Dump (UnitFile AppFile NetFile projectXml unitJson appJson netJson projectJson Distinct IsDump)


theorem setAdd_mem (l : List Int) : ∀ (s : List Int) (x : Int), x ∈ setAdd s l ↔ x ∈ s ∨ x ∈ l := by
  unfold setAdd
  induction l with
  | nil => simp
  | cons y l ih =>
    intro s x
    rw [List.foldl_cons, ih]
    split
    · rename_i hy
      constructor
      · rintro (h | h)
        · exact .inl h
        · exact .inr (List.mem_cons_of_mem _ h)
      · rintro (h | h)
        · exact .inl h
        · rcases List.mem_cons.1 h with rfl | h
          · exact .inl hy
          · exact .inr h
    · simp only [List.mem_append, List.mem_cons, List.not_mem_nil, or_false, or_assoc]

theorem setAdd_nodup (l : List Int) : ∀ s : List Int, s.Nodup → (setAdd s l).Nodup := by
  unfold setAdd
  induction l with
  | nil => intro s h; exact h
  | cons y l ih =>
    intro s h
    rw [List.foldl_cons]
    apply ih
    split
    · exact h
    · rename_i hy
      rw [List.nodup_append]
      refine ⟨h, by simp, ?_⟩
      intro a ha b hb e
      simp at hb
      exact hy (hb ▸ e ▸ ha)

theorem addUnits_spec (us : List GUnit) : ∀ (g : Subgraph) (loads : List Int),
    let r := us.foldl addUnit (g, loads)
    r.1.name = g.name ∧ r.1.nodes = g.nodes ++ us.map (fun u => .unit u.name) ∧
    r.1.edges = g.edges ++ us.flatMap (fun u => (u.groups.filter (· ≠ 255)).map fun x => (u.name, GNode.ga x)) ∧
    (∀ x, x ∈ r.2 ↔ x ∈ loads ∨ ∃ u ∈ us, x ∈ u.groups) ∧ (loads.Nodup → r.2.Nodup) := by
  induction us with
  | nil => intro g loads; simp
  | cons u us ih =>
    intro g loads
    rw [List.foldl_cons]
    obtain ⟨h1, h2, h3, h4, h5⟩ := ih (addUnit (g, loads) u).1 (addUnit (g, loads) u).2
    refine ⟨h1, ?_, ?_, ?_, fun h => h5 (setAdd_nodup _ _ h)⟩
    · rw [h2]; simp [addUnit]
    · rw [h3]; simp [addUnit]
    · intro x
      rw [h4]
      show x ∈ setAdd loads u.groups ∨ _ ↔ _
      rw [setAdd_mem]
      simp only [List.mem_cons, exists_eq_or_imp, or_assoc]

/-- What the graph of a network shows: a node for each unit, a node for each group
address that occurs and an arrow from a unit to each of its group addresses that is
not 255. -/
def ShowsNetwork (id : Str) (units : List GUnit) (g : Subgraph) : Prop :=
  g.name = "Network_".toList ++ id ∧
  (∀ n, g.nodes.count (.unit n) = (units.filter fun u => u.name = n).length) ∧
  (∀ i, g.nodes.count (.ga i) = if ∃ u ∈ units, i ∈ u.groups then 1 else 0) ∧
  ∀ n i, g.edges.count (n, .ga i) =
    if i = 255 then 0 else ((units.filter fun u => u.name = n).map fun u => u.groups.count i).sum

theorem count_units (us : List GUnit) (n : Option Str) :
    (us.map fun u => GNode.unit u.name).count (.unit n) = (us.filter fun u => u.name = n).length := by
  induction us with
  | nil => rfl
  | cons u us ih =>
    rw [List.map_cons, List.count_cons, ih, List.filter_cons]
    by_cases h : u.name = n <;> simp [h]

theorem subgraph_shows (id : Str) (units : List GUnit) : ShowsNetwork id units (subgraph id units) := by
  obtain ⟨h1, h2, h3, h4, h5⟩ := addUnits_spec units ⟨"Network_".toList ++ id, [], []⟩ []
  unfold subgraph
  refine ⟨h1, ?_, ?_, ?_⟩
  · intro n
    simp only [h2, List.nil_append, List.count_append, count_units]
    have : ∀ l : List Int, (l.map GNode.ga).count (.unit n) = 0 := by
      intro l; apply List.count_eq_zero.2; simp
    rw [this]; simp
  · intro i
    simp only [h2, List.nil_append, List.count_append]
    have : (units.map fun u => GNode.unit u.name).count (.ga i) = 0 := by
      apply List.count_eq_zero.2; simp
    rw [this, Nat.zero_add]
    have hc : ∀ l : List Int, (l.map GNode.ga).count (.ga i) = l.count i := by
      intro l
      induction l with
      | nil => rfl
      | cons a l ih =>
        rw [List.map_cons, List.count_cons, List.count_cons, ih]
        by_cases h : a = i <;> simp [h]
    rw [hc]
    have hm := h4 i
    simp only [List.not_mem_nil, false_or] at hm
    split
    · rename_i h
      have hn := h5 (by simp)
      rw [hn.count, if_pos (hm.2 h)]
    · rename_i h
      exact List.count_eq_zero.2 fun hx => h (hm.1 hx)
  · intro n i
    simp only [h3, List.nil_append]
    clear h1 h2 h3 h4 h5
    induction units with
    | nil => simp
    | cons u us ih =>
      rw [List.flatMap_cons, List.count_append, ih, List.filter_cons]
      have hc : ∀ l : List Int, ((l.filter (· ≠ 255)).map fun x => (u.name, GNode.ga x)).count (n, .ga i)
          = if i = 255 then 0 else if u.name = n then l.count i else 0 := by
        intro l
        induction l with
        | nil => simp
        | cons a l ih =>
          rw [List.filter_cons]
          by_cases ha : a = 255
          · rw [if_neg (by simp [ha]), ih, List.count_cons]
            by_cases hi : i = 255
            · simp [hi]
            · by_cases hn : u.name = n
              · simp only [hi, hn, if_false, if_true]
                rw [if_neg (by simp; omega)]; rfl
              · simp [hi, hn]
          · rw [if_pos (by simp [ha]), List.map_cons, List.count_cons, ih, List.count_cons]
            by_cases hi : i = 255
            · subst hi
              simp [ha]
            · by_cases hn : u.name = n
              · simp only [hi, hn, if_false, if_true]
                by_cases hai : a = i <;> simp [hai]
              · simp [hi, hn]
      rw [hc]
      by_cases hi : i = 255
      · simp [hi]
      · by_cases hn : u.name = n <;> simp [hi, hn]

/-- What `generate_graph` sees of a unit of a file. -/
def fileUnit (u : UnitFile) : GUnit := ⟨some (shown u.name), u.groups.map fun g => (g.toNat : Int)⟩

theorem intsOf_map (l : List Int) : intsOf (l.map fun i => .num (.int i)) = some l := by
  induction l with
  | nil => rfl
  | cons a l ih => simp [intsOf, ih]

theorem gunit_obj (l : List (Str × JVal)) : gunit (.obj l) =
    match dictGet l "name".toList, dictGet l "groups".toList with
    | some (.str s), some (.arr g) => (intsOf g).map fun g => (⟨some s, g⟩ : GUnit)
    | some .null, some (.arr g) => (intsOf g).map fun g => ⟨none, g⟩
    | _, _ => none := rfl

theorem gunits_obj (l : List (Str × JVal)) : gunits (.obj l) = match dictGet l "units".toList with
    | some (.obj us) => us.mapM fun p => gunit p.2
    | _ => none := rfl

theorem gunit_file (u : UnitFile) : gunit (unitJson u) = some (fileUnit u) := by
  unfold unitJson
  rw [gunit_obj]
  have e : (u.groups.map fun g => JVal.num (.int g.toNat)) = (u.groups.map fun g => (g.toNat : Int)).map
      fun i => JVal.num (.int i) := by rw [List.map_map]; rfl
  simp only [dictGet_cons']
  rw [if_pos trivial, if_neg (by decide), if_neg (by decide), if_neg (by decide), if_neg (by decide), if_neg (by decide),
    if_neg (by decide), if_pos trivial]
  simp only [e, intsOf_map]
  rfl

theorem mapM_map {α β γ : Type} (f : β → Option γ) (g : α → β) (k : α → γ) (h : ∀ x, f (g x) = some (k x)) :
    ∀ l : List α, (l.map g).mapM f = some (l.map k)
  | [] => rfl
  | x :: l => by
    rw [List.map_cons, List.mapM_cons, h, mapM_map f g k h l]
    rfl

theorem gunits_file (n : NetFile) : gunits (netJson n) = some (n.units.map fileUnit) := by
  unfold netJson
  rw [gunits_obj]
  simp only [dictGet_cons']
  rw [if_neg (by decide), if_neg (by decide), if_neg (by decide), if_neg (by decide), if_pos trivial]
  simp only
  exact mapM_map (fun p : Str × JVal => gunit p.2) _ fileUnit (fun u => gunit_file u) _

/-- C79: from a project file, through `dump_labels`, to the graph: one subgraph for
each network, in order, that shows its units and their group addresses. -/
theorem C79_file (env : Env) (version name : Str) (nets : List NetFile) (hd : Distinct nets)
    (ho : ∀ n ∈ nets, ∀ u ∈ n.units, OtherParams u) :
    ∃ v j gs, open' env .path (.plain (.ok (projectXml version name nets))) = some (.ok v) ∧ dump env v = .ok j ∧
      generateGraph j = some gs ∧
      All2 (fun n g => ShowsNetwork (toString n.address).toList (n.units.map fileUnit) g) nets gs := by
  obtain ⟨v, h1, h2⟩ := C78_file env version name nets hd ho
  refine ⟨v, _, nets.map fun n => subgraph (toString n.address).toList (n.units.map fileUnit), h1, h2, ?_, ?_⟩
  · have hg : ∀ l, gnets (.obj l) = l.mapM fun p => (gunits p.2).map fun us => (p.1, us) := fun _ => rfl
    unfold generateGraph projectJson
    rw [hg, mapM_map _ _ (fun n : NetFile => ((toString n.address).toList, n.units.map fileUnit))
      (fun n => by simp only [gunits_file]; rfl)]
    simp only [Option.map_some, List.map_map]
    rfl
  · clear h1 h2 hd ho
    induction nets with
    | nil => trivial
    | cons n nets ih => exact ⟨subgraph_shows _ _, ih⟩

/-- C79 for any dump in the form that `dump_labels` writes. -/
theorem C79_graph (j : JVal) (ns : List (Str × List GUnit)) (h : gnets j = some ns) :
    ∃ gs, generateGraph j = some gs ∧ All2 (fun n g => ShowsNetwork n.1 n.2 g) ns gs := by
  refine ⟨ns.map fun p => subgraph p.1 p.2, by unfold generateGraph; rw [h]; rfl, ?_⟩
  clear h
  induction ns with
  | nil => trivial
  | cons n ns ih => exact ⟨subgraph_shows _ _, ih⟩

theorem mapM_some {α β : Type} (f : α → Option β) : ∀ l : List α, (∀ x ∈ l, ∃ y, f x = some y) →
    ∃ ys, l.mapM f = some ys
  | [], _ => ⟨[], rfl⟩
  | x :: l, h => by
    obtain ⟨y, hy⟩ := h x List.mem_cons_self
    obtain ⟨ys, hys⟩ := mapM_some f l fun z hz => h z (List.mem_cons_of_mem _ hz)
    exact ⟨y :: ys, by rw [List.mapM_cons, hy, hys]; rfl⟩

/-- C79: the dump of any project can be drawn. -/
theorem C79_drawn (env : Env) (nets : List Spec.Dump.Net) (j : JVal) (h : IsDump env nets j) :
    ∃ gs, generateGraph j = some gs := by
  obtain ⟨d, rfl, -, -, h⟩ := h
  have : ∃ ns, gnets (.obj d) = some ns := by
    apply mapM_some
    rintro ⟨k, v⟩ hm
    obtain ⟨n, -, -, apps, units, -, ⟨du, rfl, -, -, hu⟩, rfl⟩ := h k v hm
    have hg : ∃ us, du.mapM (fun p => gunit p.2) = some us := by
      apply mapM_some
      rintro ⟨k', v'⟩ hm'
      obtain ⟨u, -, -, l, -, rfl⟩ := hu k' v' hm'
      simp only [gunit_obj]
      simp only [dictGet_cons']
      rw [if_pos trivial, if_neg (by decide), if_neg (by decide), if_neg (by decide), if_neg (by decide),
        if_neg (by decide), if_neg (by decide), if_pos trivial]
      cases u.name with
      | none => exact ⟨⟨none, l⟩, by simp only [Spec.Dump.jStr, intsOf_map]; rfl⟩
      | some s => exact ⟨⟨some s, l⟩, by simp only [Spec.Dump.jStr, intsOf_map]; rfl⟩
    obtain ⟨us, hus⟩ := hg
    refine ⟨(k, us), ?_⟩
    have : gunits (.obj [("name".toList, Spec.Dump.jStr n.name), ("address".toList, Spec.Dump.jInt n.address),
        ("networknumber".toList, Spec.Dump.jInt n.number), ("applications".toList, apps), ("units".toList, .obj du)])
        = some us := by
      rw [gunits_obj]
      simp only [dictGet_cons']
      rw [if_neg (by decide), if_neg (by decide), if_neg (by decide), if_neg (by decide), if_pos trivial]
      exact hus
    simp only [this]
    rfl
  obtain ⟨ns, hns⟩ := this
  exact ⟨_, by unfold generateGraph; rw [hns]; rfl⟩

/-- The example has arrows from both units to group 34, none to 255. -/
example : generateGraph (projectJson exampleProject) = some [
    ⟨"Network_254".toList,
      [.unit (some "Relay".toList), .unit (some "Panel".toList), .ga 34, .ga 35, .ga 255],
      [(some "Relay".toList, .ga 34), (some "Relay".toList, .ga 35), (some "Panel".toList, .ga 34)]⟩,
    ⟨"Network_253".toList, [], []⟩] := by decide +kernel

/-! ## C80: unused channels -/

/-- The claim: the group address 255 of an unused channel is not in the graph. -/
def C80_claim : Prop :=
  ∀ (j : JVal) (gs : List Subgraph), generateGraph j = some gs →
    ∀ g ∈ gs, .ga 255 ∉ g.nodes ∧ ∀ e ∈ g.edges, e.2 ≠ .ga 255

/-- C80 is false: a network with an unused channel gets a node for 255. -/
theorem C80_false : ¬ C80_claim := by
  intro h
  have := h (projectJson exampleProject) ((generateGraph (projectJson exampleProject)).getD []) (by decide +kernel) ⟨"Network_254".toList,
      [.unit (some "Relay".toList), .unit (some "Panel".toList), .ga 34, .ga 35, .ga 255],
      [(some "Relay".toList, .ga 34), (some "Relay".toList, .ga 35), (some "Panel".toList, .ga 34)]⟩
    (by decide +kernel)
  revert this
  decide +kernel

/-- C80, the part that holds: no arrow leads to 255; a node for it is there iff a unit
has an unused channel. Missing: the node. -/
theorem C80_arrows_partial (j : JVal) (ns : List (Str × List GUnit)) (h : gnets j = some ns) :
    ∃ gs, generateGraph j = some gs ∧
      All2 (fun n g => (∀ e ∈ g.edges, e.2 ≠ .ga 255) ∧
        (.ga 255 ∈ g.nodes ↔ ∃ u ∈ n.2, (255 : Int) ∈ u.groups)) ns gs := by
  obtain ⟨gs, h1, h2⟩ := C79_graph j ns h
  refine ⟨gs, h1, all2_imp _ _ (fun n g _ hs => ?_) h2⟩
  obtain ⟨-, -, h3, h4⟩ := hs
  constructor
  · rintro ⟨n', x⟩ he rfl
    have := h4 n' 255
    rw [if_pos rfl] at this
    exact List.count_eq_zero.1 this he
  · rw [← List.count_pos_iff, h3]
    split
    · rename_i h; simp [h]
    · rename_i h; simp [h]

end CBus.Props
