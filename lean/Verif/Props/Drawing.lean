import Verif.Props.Graph

/-! # C145: what the drawing of a graph says -/

namespace CBus.Props
open CBus CBus.Cbz CBus.Spec.Cbz
open CBus.Spec.Dump (NetFile projectJson)

/-- Whether there is an arrow from the node with one text to the node with another. In a drawing, nodes
of the same text are the same node, in whichever subgraphs they are. -/
def ArrowDrawn (gs : List Subgraph) (a b : Str) : Prop :=
  ∃ g ∈ gs, ∃ e ∈ g.edges, e.1 = some a ∧ e.2.text = some b

/-- Whether there is a node with a text. -/
def NodeDrawn (gs : List Subgraph) (a : Str) : Prop := ∃ g ∈ gs, ∃ n ∈ g.nodes, n.text = some a

/-- The text of a group address. -/
def groupText (x : Int) : Str := ("GA " ++ toString x).toList

theorem ga_text (x : Int) : (GNode.ga x).text = some (groupText x) := by
  show some ("GA ".toList ++ intStr x) = _
  rw [intStr_toString]
  simp [groupText]

theorem groupText_inj {x y : Int} (h : groupText x = groupText y) : x = y := by
  unfold groupText at h
  simp only [String.toList_append, List.append_cancel_left_eq] at h
  rw [← intStr_toString, ← intStr_toString] at h
  exact intStr_inj h

/-- The claim: from the node of a unit there are arrows to its groups (except 255) and to no others. -/
def C145_claim : Prop :=
  ∀ (j : JVal) (ns : List (Str × List GUnit)) (gs : List Subgraph), gnets j = some ns → generateGraph j = some gs →
    ∀ n ∈ ns, ∀ u ∈ n.2, ∀ a, u.name = some a → ∀ x : Int, x ≠ 255 → (ArrowDrawn gs a (groupText x) ↔ x ∈ u.groups)

theorem subgraph_edges (id : Str) (us : List GUnit) :
    (subgraph id us).edges = us.flatMap fun u => (u.groups.filter (· ≠ 255)).map fun x => (u.name, GNode.ga x) := by
  obtain ⟨-, -, h, -⟩ := addUnits_spec us ⟨"Network_".toList ++ id, [], []⟩ []
  unfold subgraph
  simp only
  rw [h]
  rfl

theorem subgraph_nodes (id : Str) (us : List GUnit) (n : GNode) :
    n ∈ (subgraph id us).nodes ↔ (∃ u ∈ us, n = .unit u.name) ∨ ∃ u ∈ us, ∃ x ∈ u.groups, n = .ga x := by
  obtain ⟨-, h1, -, h2, -⟩ := addUnits_spec us ⟨"Network_".toList ++ id, [], []⟩ []
  unfold subgraph
  simp only
  rw [h1]
  simp only [List.nil_append, List.mem_append, List.mem_map]
  refine or_congr ⟨fun ⟨u, h, e⟩ => ⟨u, h, e.symm⟩, fun ⟨u, h, e⟩ => ⟨u, h, e.symm⟩⟩ ⟨?_, ?_⟩
  · rintro ⟨x, hx, rfl⟩
    rcases (h2 x).1 hx with h | ⟨u, hu, hx⟩
    · cases h
    · exact ⟨u, hu, x, hx, rfl⟩
  · rintro ⟨u, hu, x, hx, rfl⟩
    exact ⟨x, (h2 x).2 (.inr ⟨u, hu, hx⟩), rfl⟩

/-- What the arrows say: some unit of that name, in some network, has the group. -/
theorem C145_arrows (j : JVal) (ns : List (Str × List GUnit)) (gs : List Subgraph) (h : gnets j = some ns)
    (hg : generateGraph j = some gs) (a : Str) (x : Int) :
    ArrowDrawn gs a (groupText x) ↔ x ≠ 255 ∧ ∃ n ∈ ns, ∃ u ∈ n.2, u.name = some a ∧ x ∈ u.groups := by
  unfold generateGraph at hg
  rw [h] at hg
  cases hg
  constructor
  · rintro ⟨g, h1, e, h2, h3, h4⟩
    obtain ⟨n, hn, rfl⟩ := List.mem_map.1 h1
    rw [subgraph_edges] at h2
    obtain ⟨u, hu, he⟩ := List.mem_flatMap.1 h2
    obtain ⟨y, hy, rfl⟩ := List.mem_map.1 he
    rw [ga_text] at h4
    have := groupText_inj (Option.some.inj h4)
    subst this
    rw [List.mem_filter] at hy
    exact ⟨by simpa using hy.2, n, hn, u, hu, h3, hy.1⟩
  · rintro ⟨h0, n, hn, u, hu, h3, hx⟩
    refine ⟨subgraph n.1 n.2, List.mem_map.2 ⟨n, hn, rfl⟩, (u.name, .ga x), ?_, h3, ga_text x⟩
    rw [subgraph_edges]
    exact List.mem_flatMap.2 ⟨u, hu, List.mem_map.2 ⟨x, List.mem_filter.2 ⟨hx, by simpa using h0⟩, rfl⟩⟩

/-- All arrows lead from the name of a unit to a group. -/
theorem C145_ends (j : JVal) (gs : List Subgraph) (hg : generateGraph j = some gs) (a b : Str) (h : ArrowDrawn gs a b) :
    ∃ x, b = groupText x := by
  unfold generateGraph at hg
  cases hn : gnets j with
  | none => rw [hn] at hg; cases hg
  | some ns =>
    rw [hn] at hg
    cases hg
    obtain ⟨g, h1, e, h2, -, h4⟩ := h
    obtain ⟨n, hn, rfl⟩ := List.mem_map.1 h1
    rw [subgraph_edges] at h2
    obtain ⟨u, hu, he⟩ := List.mem_flatMap.1 h2
    obtain ⟨y, hy, rfl⟩ := List.mem_map.1 he
    rw [ga_text] at h4
    exact ⟨y, (Option.some.inj h4).symm⟩

/-- What the nodes say. -/
theorem C145_nodes (j : JVal) (ns : List (Str × List GUnit)) (gs : List Subgraph) (h : gnets j = some ns)
    (hg : generateGraph j = some gs) (a : Str) :
    NodeDrawn gs a ↔ ∃ n ∈ ns, ∃ u ∈ n.2, u.name = some a ∨ ∃ x ∈ u.groups, a = groupText x := by
  unfold generateGraph at hg
  rw [h] at hg
  cases hg
  constructor
  · rintro ⟨g, h1, m, h2, h3⟩
    obtain ⟨n, hn, rfl⟩ := List.mem_map.1 h1
    rcases (subgraph_nodes _ _ _).1 h2 with ⟨u, hu, rfl⟩ | ⟨u, hu, x, hx, rfl⟩
    · exact ⟨n, hn, u, hu, .inl h3⟩
    · rw [ga_text] at h3
      exact ⟨n, hn, u, hu, .inr ⟨x, hx, (Option.some.inj h3).symm⟩⟩
  · rintro ⟨n, hn, u, hu, h3 | ⟨x, hx, rfl⟩⟩
    · exact ⟨_, List.mem_map.2 ⟨n, hn, rfl⟩, .unit u.name, (subgraph_nodes _ _ _).2 (.inl ⟨u, hu, rfl⟩), h3⟩
    · exact ⟨_, List.mem_map.2 ⟨n, hn, rfl⟩, .ga x, (subgraph_nodes _ _ _).2 (.inr ⟨u, hu, x, hx, rfl⟩), ga_text x⟩

/-- C145 as far as it is true: for a unit that shares its name with no other unit of other groups. Missing are
units of the same name, in one network or in several. -/
theorem C145_partial (j : JVal) (ns : List (Str × List GUnit)) (gs : List Subgraph) (h : gnets j = some ns)
    (hg : generateGraph j = some gs) (n : Str × List GUnit) (hn : n ∈ ns) (u : GUnit) (hu : u ∈ n.2) (a : Str) (ha : u.name = some a)
    (hs : ∀ n' ∈ ns, ∀ u' ∈ n'.2, u'.name = some a → u'.groups = u.groups) (x : Int) (hx : x ≠ 255) :
    ArrowDrawn gs a (groupText x) ↔ x ∈ u.groups := by
  rw [C145_arrows j ns gs h hg]
  constructor
  · rintro ⟨-, n', h1, u', h2, h3, h4⟩
    rw [← hs n' h1 u' h2 h3]
    exact h4
  · exact fun h4 => ⟨hx, n, hn, u, hu, ha, h4⟩

/-- Two networks with a panel each. -/
def twoPanels : JVal :=
  let unit (groups : List JVal) : JVal := .obj [("name".toList, .str "Panel".toList), ("groups".toList, .arr groups)]
  let net (groups : List JVal) : JVal := .obj [("units".toList, .obj [("1".toList, unit groups)])]
  .obj [("254".toList, net [.num (.int 1)]), ("253".toList, net [.num (.int 2)])]

/-- In the drawing of two networks with a panel each, the panel of the one drives the group of the other. -/
theorem C145_false : ¬ C145_claim := by
  intro h
  have h1 : gnets twoPanels = some [("254".toList, [⟨some "Panel".toList, [1]⟩]), ("253".toList, [⟨some "Panel".toList, [2]⟩])] := by
    decide +kernel
  have hg : generateGraph twoPanels = some ([("254".toList, [⟨some "Panel".toList, [1]⟩]), ("253".toList, [⟨some "Panel".toList, [2]⟩])].map
      fun p => subgraph p.1 p.2) := by unfold generateGraph; rw [h1]; rfl
  have h2 := (h twoPanels _ _ h1 hg _ List.mem_cons_self _ List.mem_cons_self "Panel".toList rfl 2 (by decide)).1
    ((C145_arrows twoPanels _ _ h1 hg _ _).2 ⟨by decide, ("253".toList, [⟨some "Panel".toList, [2]⟩]),
      List.mem_cons_of_mem _ List.mem_cons_self, ⟨some "Panel".toList, [2]⟩, List.mem_cons_self, rfl, List.mem_cons_self⟩)
  revert h2
  decide

/-- In the example project the units have names of their own. -/
example : ∃ gs, generateGraph (projectJson exampleProject) = some gs ∧ ArrowDrawn gs "Relay".toList "GA 35".toList ∧
    ¬ ArrowDrawn gs "Panel".toList "GA 35".toList := by
  have h1 : gnets (projectJson exampleProject) = some [("254".toList, [⟨some "Relay".toList, [34, 35, 255, 255]⟩, ⟨some "Panel".toList, [34]⟩]),
      ("253".toList, [])] := by decide +kernel
  have hg : generateGraph (projectJson exampleProject) = some ([("254".toList, [⟨some "Relay".toList, [34, 35, 255, 255]⟩, ⟨some "Panel".toList, [34]⟩]),
      ("253".toList, [])].map fun p => subgraph p.1 p.2) := by unfold generateGraph; rw [h1]; rfl
  refine ⟨_, hg, ?_, ?_⟩
  · refine (C145_partial _ _ _ h1 hg _ List.mem_cons_self ⟨some "Relay".toList, [34, 35, 255, 255]⟩ List.mem_cons_self "Relay".toList rfl ?_ 35
      (by decide)).2 (by decide)
    decide
  · intro h
    have := (C145_partial _ _ _ h1 hg _ List.mem_cons_self ⟨some "Panel".toList, [34]⟩ (List.mem_cons_of_mem _ List.mem_cons_self)
      "Panel".toList rfl (by decide) 35 (by decide)).1 h
    revert this
    decide

end CBus.Props
