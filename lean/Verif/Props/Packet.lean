import Verif.Model.Packet
import Verif.Spec.Sal

/-! # C24, C68: packet contents and the application registry -/

namespace CBus.Props
open CBus CBus.Spec

/-! ## C24 -/

/-- What a user can do to the contents of a packet. -/
inductive PmOp
  | append (s : SAL)
  | clear
  deriving DecidableEq, Repr

/-- One call; the packet afterwards. -/
def PmOp.run (p : PM) : PmOp → PM
  | .append s => (p.appendSal s).1
  | .clear => p.clearSal

/-- Everything the packet holds is for the packet's application. -/
def Homogeneous (p : PM) : Prop := ∀ s ∈ p.sals, p.app = some s.application

/-- C24: an append for the wrong application raises `ValueError` and changes
nothing; any other append succeeds and adds exactly that SAL at the end. -/
theorem C24_append (p : PM) (s : SAL) :
    (∀ a, p.app = some a → a ≠ s.application →
      p.appendSal s = (p, .error .valueError)) ∧
    ((p.app = none ∨ p.app = some s.application) →
      p.appendSal s = ({ p with app := some s.application, sals := p.sals ++ [s] }, .ok ())) := by
  constructor
  · intro a ha hne
    simp [PM.appendSal, ha, hne]
  · rintro (h | h)
    · simp [PM.appendSal, h]
    · simp only [PM.appendSal, h, ne_eq, not_true, if_false]

theorem homogeneous_run (p : PM) (op : PmOp) (h : Homogeneous p) : Homogeneous (op.run p) := by
  cases op with
  | clear => intro s hs; simp [PmOp.run, PM.clearSal] at hs
  | append s =>
    cases ha : p.app with
    | none =>
      have hnil : p.sals = [] := by
        cases hp : p.sals with
        | nil => rfl
        | cons x xs => have := h x (by simp [hp]); rw [ha] at this; cases this
      intro x hx
      simp only [PmOp.run, (C24_append p s).2 (Or.inl ha), hnil] at hx ⊢
      simp at hx; subst hx; rfl
    | some a =>
      by_cases he : a = s.application
      · intro x hx
        simp only [PmOp.run, (C24_append p s).2 (Or.inr (by rw [ha, he]))] at hx ⊢
        rcases List.mem_append.1 hx with hx | hx
        · rw [← h x hx, ha, he]
        · simp at hx; subst hx; rfl
      · simp only [PmOp.run, (C24_append p s).1 a ha he]; exact h

/-- C24: after any history of appends and clears, starting from a freshly
constructed packet (for any application or none), the packet never mixes
applications. -/
theorem C24_never_mixes (checksum : Bool) (prio : Prio) (app : Option Int) (init : List SAL) (p : PM)
    (hp : mkPM checksum prio app init = .ok p) (ops : List PmOp) :
    Homogeneous (ops.foldl PmOp.run p) := by
  have h0 : ∀ (l : List SAL) (q p : PM), Homogeneous q → q.appendAll l = .ok p → Homogeneous p := by
    intro l
    induction l with
    | nil => intro q p hq h; simp [PM.appendAll] at h; subst h; exact hq
    | cons s ss ih =>
      intro q p hq h
      rw [PM.appendAll] at h
      split at h
      · rename_i q' hq'
        have : q' = (PmOp.append s).run q := by simp [PmOp.run, hq']
        exact ih q' p (this ▸ homogeneous_run q _ hq) h
      · cases h
  have hp' : Homogeneous p := h0 init _ p (by intro s hs; simp at hs) hp
  clear hp
  induction ops generalizing p with
  | nil => exact hp'
  | cons op ops ih => exact ih _ (homogeneous_run p op hp')

/-- C24: after `clear_sal` any SAL may be appended. -/
theorem C24_clear (p : PM) (s : SAL) :
    p.clearSal.sals = [] ∧ (p.clearSal.appendSal s).2 = .ok () ∧ (p.clearSal.appendSal s).1.sals = [s] := by
  simp [PM.clearSal, PM.appendSal]

/-- The SALs a history leaves behind, computed without a packet: those accepted
since the last clear, in order; a SAL is accepted if it is for the current
application or there is none. -/
def contents : Option Int → List SAL → List PmOp → Option Int × List SAL
  | a, l, [] => (a, l)
  | _, _, .clear :: ops => contents none [] ops
  | none, l, .append s :: ops => contents (some s.application) (l ++ [s]) ops
  | some a, l, .append s :: ops =>
    if s.application = a then contents (some a) (l ++ [s]) ops else contents (some a) l ops

/-- C24: a packet's contents after any history. -/
theorem C24_contents (p : PM) (ops : List PmOp) :
    ((ops.foldl PmOp.run p).app, (ops.foldl PmOp.run p).sals) = contents p.app p.sals ops := by
  induction ops generalizing p with
  | nil => simp [contents]
  | cons op ops ih =>
    simp only [List.foldl_cons]
    rw [ih]
    cases op with
    | clear => simp [PmOp.run, PM.clearSal, contents]
    | append s =>
      cases ha : p.app with
      | none => simp [PmOp.run, (C24_append p s).2 (Or.inl ha), contents]
      | some a =>
        by_cases he : a = s.application
        · simp [PmOp.run, (C24_append p s).2 (Or.inr (by rw [ha, he])), contents, he]
        · have : ¬ s.application = a := fun h => he h.symm
          simp [PmOp.run, (C24_append p s).1 a ha he, contents, this, ha]

/-- Other fields are never touched. -/
theorem C24_frame (p : PM) (ops : List PmOp) :
    let q := ops.foldl PmOp.run p
    q.checksum = p.checksum ∧ q.prio = p.prio ∧ q.conf = p.conf ∧ q.src = p.src := by
  induction ops generalizing p with
  | nil => simp
  | cons op ops ih =>
    have step : (op.run p).checksum = p.checksum ∧ (op.run p).prio = p.prio ∧
        (op.run p).conf = p.conf ∧ (op.run p).src = p.src := by
      cases op with
      | clear => simp [PmOp.run, PM.clearSal]
      | append s =>
        simp only [PmOp.run, PM.appendSal]
        split
        · simp
        · split <;> simp
    have := ih (op.run p)
    simp only [List.foldl_cons]
    simp only at this
    rw [this.1, this.2.1, this.2.2.1, this.2.2.2]
    exact step

/-- A history with one refused append. -/
def exampleOps : List PmOp := [.append (.lightOn 1), .append .clockRequest, .append (.lightOff 2)]

example : (exampleOps.foldl PmOp.run {}).sals = [.lightOn 1, .lightOff 2] ∧
    (exampleOps.foldl PmOp.run {}).app = some 0x38 := by decide

/-! ## C68 -/

/-- C68: a registration either succeeds, giving every listed ID its handler and
leaving all other IDs alone, or raises `ValueError` and changes nothing; it
succeeds exactly when all IDs are in 0..255 and none has another handler. -/
theorem C68_register (ids : List Int) (app : AppHandler) (r : Registry) :
    ((∀ i ∈ ids, (0 ≤ i ∧ i ≤ 255) ∧ (r.get i = none ∨ r.get i = some app)) →
      (registerApplication ids app r).2 = .ok () ∧
      ∀ i, (registerApplication ids app r).1.get i = if i ∈ ids then some app else r.get i) ∧
    ((∃ i ∈ ids, ¬ (0 ≤ i ∧ i ≤ 255) ∨ (∃ h, r.get i = some h ∧ h ≠ app)) →
      registerApplication ids app r = (r, .error .valueError)) := by
  have getCons : ∀ (r : Registry) (i j : Int) (h : AppHandler),
      Registry.get ((i, h) :: r) j = if i = j then some h else r.get j := by
    intro r i j h
    by_cases he : i = j
    · subst he; simp [Registry.get]
    · simp [Registry.get, he]
  have good : ∀ (ids : List Int) (r : Registry),
      (∀ i ∈ ids, r.get i = none ∨ r.get i = some app) →
      ∃ r', registerLoop app ids r = .ok r' ∧
        ∀ i, r'.get i = if i ∈ ids then some app else r.get i := by
    intro ids
    induction ids with
    | nil => intro r _; exact ⟨r, rfl, by simp⟩
    | cons i is ih =>
      intro r h
      have step : registerLoop app (i :: is) r = registerLoop app is ((i, app) :: r) := by
        rw [registerLoop]
        rcases h i (by simp) with hi | hi
        · rw [hi]
        · rw [hi]; simp
      obtain ⟨r', h1, h2⟩ := ih ((i, app) :: r) (by
        intro j hj
        rw [getCons]
        by_cases he : i = j
        · simp [he]
        · simp [he]; exact h j (by simp [hj]))
      refine ⟨r', by rw [step, h1], ?_⟩
      intro j
      rw [h2 j, getCons]
      by_cases h1 : j ∈ is
      · simp [h1]
      · by_cases h2 : i = j
        · simp [h2]
        · have : ¬ j = i := fun h => h2 h.symm
          simp [h1, h2, this]
  have bad : ∀ (ids : List Int) (r : Registry),
      (∃ i ∈ ids, ∃ h, r.get i = some h ∧ h ≠ app) →
      registerLoop app ids r = .error .valueError := by
    intro ids
    induction ids with
    | nil => rintro r ⟨i, hi, -⟩; simp at hi
    | cons i is ih =>
      rintro r ⟨j, hj, h, hg, hne⟩
      rw [registerLoop]
      cases hgi : r.get i with
      | none =>
        simp only
        have : j ≠ i := by intro he; rw [he] at hg; rw [hgi] at hg; cases hg
        apply ih
        refine ⟨j, by simp [this] at hj; exact hj, h, ?_, hne⟩
        rw [getCons, if_neg (fun e => this e.symm), hg]
      | some x =>
        simp only
        by_cases hx : x = app
        · subst hx
          simp only [ne_eq, not_true, if_false]
          have : j ≠ i := by
            intro he; rw [he, hgi] at hg; injection hg with hg; exact hne hg.symm
          apply ih
          refine ⟨j, by simp [this] at hj; exact hj, h, ?_, hne⟩
          rw [getCons, if_neg (fun e => this e.symm), hg]
        · simp [hx]
  constructor
  · intro h
    obtain ⟨r', h1, h2⟩ := good ids r (fun i hi => (h i hi).2)
    unfold registerApplication
    rw [if_pos]
    · rw [h1]; exact ⟨rfl, h2⟩
    · rw [List.all_eq_true]; intro i hi
      have := (h i hi).1
      simp [this.1]; omega
  · rintro ⟨i, hi, h⟩
    unfold registerApplication
    by_cases hall : ids.all (fun i => decide (0 ≤ i) && decide (i ≤ 0xff)) = true
    · rw [if_pos hall]
      rcases h with h | h
      · rw [List.all_eq_true] at hall
        have := hall i hi
        simp at this
        exact absurd ⟨this.1, by omega⟩ h
      · rw [bad ids r ⟨i, hi, h⟩]
    · rw [if_neg hall]

/-- C68: over any history of registrations, whether they succeed or raise, an ID
that has a handler keeps it. -/
theorem C68_stable (hist : List (List Int × AppHandler)) (r : Registry) (i : Int) (h : AppHandler)
    (hg : r.get i = some h) :
    (hist.foldl (fun r x => (registerApplication x.1 x.2 r).1) r).get i = some h := by
  induction hist generalizing r with
  | nil => exact hg
  | cons x xs ih =>
    simp only [List.foldl_cons]
    apply ih
    obtain ⟨h1, h2⟩ := C68_register x.1 x.2 r
    by_cases hc : ∃ i ∈ x.1, ¬ (0 ≤ i ∧ i ≤ 255) ∨ (∃ h, r.get i = some h ∧ h ≠ x.2)
    · rw [h2 hc]; exact hg
    · have hall : ∀ i ∈ x.1, (0 ≤ i ∧ i ≤ 255) ∧ (r.get i = none ∨ r.get i = some x.2) := by
        intro j hj
        refine ⟨?_, ?_⟩
        · by_cases hr : 0 ≤ j ∧ j ≤ 255
          · exact hr
          · exact absurd ⟨j, hj, Or.inl hr⟩ hc
        · cases hgj : r.get j with
          | none => exact Or.inl rfl
          | some y =>
            right
            by_cases hy : y = x.2
            · rw [hy]
            · exact absurd ⟨j, hj, Or.inr ⟨y, hgj, hy⟩⟩ hc
      rw [(h1 hall).2 i]
      split
      · rename_i hm
        rcases (hall i hm).2 with h' | h'
        · rw [h'] at hg; cases hg
        · rw [← h', hg]
      · exact hg

theorem mem_supported (h : AppHandler) (i : Int) : i ∈ h.supported ↔ expectedHandler i = some h := by
  unfold expectedHandler
  cases h with
  | lighting =>
    simp only [AppHandler.supported, List.mem_map, List.mem_range]
    constructor
    · rintro ⟨k, hk, rfl⟩
      rw [if_neg (by omega), if_pos (by omega)]
    · intro h
      split at h
      · cases h
      · split at h
        · rename_i h2; exact ⟨(i - 0x30).toNat, by omega, by omega⟩
        · split at h
          · cases h
          · split at h
            · cases h
            · split at h <;> cases h
  | _ =>
    simp only [AppHandler.supported, List.mem_cons, List.not_mem_nil, or_false, appTemperature, appClock,
      appEnable, appStatusRequest]
    constructor
    · rintro rfl; decide
    · intro h
      repeat' split at h
      all_goals first | assumption | cases h

/-- C68: in whatever order (and however often) the five built-in applications
are registered at import, all registrations succeed and the result is the
expected table. -/
theorem C68_builtin_order (order : List AppHandler)
    (hall : ∀ h : AppHandler, h ∈ order) (i : Int) :
    (order.foldl (fun r a => (registerApplication a.supported a r).1) []).get i = expectedHandler i := by
  have range : ∀ (h : AppHandler) (i : Int), i ∈ h.supported → 0 ≤ i ∧ i ≤ 255 := by
    intro h i hi
    rw [mem_supported] at hi
    unfold expectedHandler at hi
    repeat' split at hi
    all_goals first | omega | cases hi
  have inv : ∀ (order : List AppHandler) (r : Registry),
      (∀ i h, r.get i = some h → expectedHandler i = some h) →
      ∀ i, (order.foldl (fun r a => (registerApplication a.supported a r).1) r).get i =
        if (∃ h ∈ order, i ∈ h.supported) then expectedHandler i else r.get i := by
    intro order
    induction order with
    | nil => intro r _ i; simp
    | cons a as ih =>
      intro r hr i
      have ok := (C68_register a.supported a r).1 (by
        intro j hj
        refine ⟨range a j hj, ?_⟩
        cases hg : r.get j with
        | none => exact Or.inl rfl
        | some y =>
          right
          have := hr j y hg
          rw [(mem_supported a j).1 hj] at this
          exact this.symm)
      simp only [List.foldl_cons]
      rw [ih]
      · by_cases h1 : ∃ h ∈ as, i ∈ h.supported
        · obtain ⟨h, hm, hi⟩ := h1
          rw [if_pos ⟨h, hm, hi⟩, if_pos ⟨h, by simp [hm], hi⟩]
        · rw [if_neg h1, ok.2 i]
          by_cases h2 : i ∈ a.supported
          · rw [if_pos h2, if_pos ⟨a, by simp, h2⟩, (mem_supported a i).1 h2]
          · rw [if_neg h2, if_neg]
            rintro ⟨h, hm, hi⟩
            rcases List.mem_cons.1 hm with rfl | hm
            · exact h2 hi
            · exact h1 ⟨h, hm, hi⟩
      · intro j h hg
        rw [ok.2 j] at hg
        split at hg
        · rename_i hj; injection hg with hg; subst hg; exact (mem_supported a j).1 hj
        · exact hr j h hg
  rw [inv order [] (by intro i h hg; simp [Registry.get] at hg) i]
  split
  · rfl
  · rename_i hn
    cases he : expectedHandler i with
    | none => simp [Registry.get]
    | some h => exact absurd ⟨h, hall h, (mem_supported h i).2 he⟩ hn

/-- C68: `get_application` returns the handler for exactly the registered IDs. -/
theorem C68_get_application (i : Int) :
    getApplication i = match expectedHandler i with
      | some h => .ok h
      | none => .error .keyError := by
  unfold getApplication builtinRegistry
  rw [C68_builtin_order _ (by intro h; cases h <;> decide) i]
  rfl

example : (registerApplication [0x19] .lighting builtinRegistry).2 = .error .valueError ∧
    (registerApplication [0x20, 300] .lighting []).2 = .error .valueError ∧
    (registerApplication [0x20] .lighting builtinRegistry).2 = .ok () := by decide +kernel

end CBus.Props
