import Verif.Model.Args
import Verif.Lemmas.ArgGrammar
import Verif.Spec.Manual

/-! # C93: the command line of the daemon -/

namespace CBus.Props
open CBus CBus.Cbz CBus.Args
open CBus.Spec (names flags daemonManual levels)
open CBus.ArgParse (isShort)

/-- The table of options. -/
theorem table : Table optionStrings := by
  constructor <;> decide +kernel

theorem daemon_names : names daemonManual = optionStrings := by decide +kernel

theorem levels_eq : levels = verbosities := by decide +kernel

theorem daemon_flags : flags daemonManual = Dest.isFlag := by funext d; cases d <;> rfl

/-! ## Options, one after the other -/

/-- An option that was read: with its argument, if it takes one. -/
abbrev Item := Dest × Str

/-- One option. -/
def setItem (env : Env) (files : Files) (i : Item) (p : Parsed) : Except Stop Parsed :=
  if i.1.isFlag then setFlag i.1 p else setValue env files i.1 i.2 p

/-- Options in order. -/
def setItems (env : Env) (files : Files) : List Item → Parsed → Except Stop Parsed
  | [], p => .ok p
  | i :: is, p => setItem env files i p >>= setItems env files is

theorem setItems_append (env : Env) (files : Files) (a b : List Item) (p : Parsed) :
    setItems env files (a ++ b) p = setItems env files a p >>= setItems env files b := by
  induction a generalizing p with
  | nil => rfl
  | cons i a ih =>
    simp only [List.cons_append, setItems, bind, Except.bind]
    cases h : setItem env files i p with
    | error e => rfl
    | ok q => simp only []; rw [ih]; rfl

theorem setFlags_items (env : Env) (files : Files) (fs : List Dest) (h : ∀ f ∈ fs, f.isFlag = true) (p : Parsed) :
    setFlags fs p = setItems env files (fs.map fun f => (f, [])) p := by
  induction fs generalizing p with
  | nil => rfl
  | cons f fs ih =>
    simp only [setFlags, List.map_cons, setItems, setItem, h f (by simp), if_true, bind, Except.bind]
    cases setFlag f p with
    | error e => rfl
    | ok q => exact ih (fun f hf => h f (by simp [hf])) q

/-- How the words of a command line are read. -/
inductive Reads : List (Str × Word) → List Item → Bool → Prop
  | nil : Reads [] [] false
  | extra (w : Str) (k : Word) (rest : List (Str × Word)) (is : List Item) (b : Bool) (hk : ∀ d s e, k ≠ .opt d s e)
      (h : Reads rest is b) : Reads ((w, k) :: rest) is true
  | explicit (w : Str) (d : Dest) (s : Bool) (e : Option Str) (fs : List Dest) (l : Dest) (v : Str)
      (rest : List (Str × Word)) (is : List Item) (b : Bool) (hu : unchain d s e = some (fs, l, some v))
      (hv : v ≠ "--".toList) (h : Reads rest is b) : Reads ((w, .opt d s e) :: rest) (fs.map (fun f => (f, [])) ++ (l, v) :: is) b
  | flag (w : Str) (d : Dest) (s : Bool) (e : Option Str) (fs : List Dest) (l : Dest)
      (rest : List (Str × Word)) (is : List Item) (b : Bool) (hu : unchain d s e = some (fs, l, none))
      (hl : l.isFlag = true)
      (h : Reads rest is b) : Reads ((w, .opt d s e) :: rest) (fs.map (fun f => (f, [])) ++ (l, []) :: is) b
  | value (w : Str) (d : Dest) (s : Bool) (e : Option Str) (fs : List Dest) (l : Dest) (v : Str)
      (rest : List (Str × Word)) (is : List Item) (b : Bool) (hu : unchain d s e = some (fs, l, none))
      (hl : l.isFlag = false)
      (h : Reads rest is b) : Reads ((w, .opt d s e) :: (v, .arg) :: rest) (fs.map (fun f => (f, [])) ++ (l, v) :: is) b

theorem setItem_extras (env : Env) (files : Files) (i : Item) (p : Parsed) (x : Bool) :
    setItem env files i { p with extras := x } = (setItem env files i p).map fun q => { q with extras := x } := by
  obtain ⟨d, v⟩ := i
  cases d <;> simp only [setItem, Dest.isFlag, setFlag, setValue, setInt, if_true, Bool.false_eq_true, if_false] <;>
    first | rfl | (split <;> rfl)

theorem setItem_keeps (env : Env) (files : Files) (i : Item) (p q : Parsed) (h : setItem env files i p = .ok q) :
    q.extras = p.extras := by
  obtain ⟨d, v⟩ := i
  cases d <;> simp only [setItem, Dest.isFlag, setFlag, setValue, setInt, if_true, Bool.false_eq_true, if_false] at h <;>
    first
    | (cases h <;> rfl)
    | (split at h <;> cases h <;> rfl)

theorem setItems_extras (env : Env) (files : Files) (is : List Item) (p : Parsed) (x : Bool) :
    setItems env files is { p with extras := x } = (setItems env files is p).map fun q => { q with extras := x } := by
  induction is generalizing p with
  | nil => rfl
  | cons i is ih =>
    simp only [setItems, bind, Except.bind, setItem_extras]
    cases setItem env files i p with
    | error e => rfl
    | ok q => exact ih q

theorem setItems_keeps (env : Env) (files : Files) (is : List Item) (p q : Parsed)
    (h1 : setItems env files is p = .ok q) : q.extras = p.extras := by
  induction is generalizing p with
  | nil => injection h1 with h1; rw [h1]
  | cons i is ih =>
    simp only [setItems, bind, Except.bind] at h1
    cases h3 : setItem env files i p with
    | error e => rw [h3] at h1; cases h1
    | ok r =>
      rw [h3] at h1
      rw [← setItem_keeps env files i p r h3]
      exact ih r h1

/-- `consume` sets the options that are read. -/
theorem consume_ok (env : Env) (files : Files) : ∀ (n : Nat) (ws : List (Str × Word)) (p p' : Parsed), ws.length ≤ n →
    consume env files ws p = .ok p' →
    ∃ is b, Reads ws is b ∧ setItems env files is { p with extras := p.extras || b } = .ok p'
  | n, [], p, p', _, h => by
    simp only [consume, Except.ok.injEq] at h
    subst h
    exact ⟨[], false, .nil, by simp [setItems]⟩
  | 0, _ :: _, _, _, hn, _ => by simp at hn
  | n + 1, (w, k) :: rest, p, p', hn, h => by
    simp only [List.length_cons, Nat.add_le_add_iff_right] at hn
    have extra : (∀ d s e, k ≠ .opt d s e) → consume env files rest { p with extras := true } = .ok p' →
        ∃ is b, Reads ((w, k) :: rest) is b ∧ setItems env files is { p with extras := p.extras || b } = .ok p' := by
      intro hk h
      obtain ⟨is, b, h1, h2⟩ := consume_ok env files n rest _ p' hn h
      exact ⟨is, true, .extra w k rest is b hk h1, by simpa using h2⟩
    have items : ∀ (is : List Item) (q : Parsed) (b : Bool) (more : List Item), setItems env files is p = .ok q →
        setItems env files more { q with extras := q.extras || b } = .ok p' →
        setItems env files (is ++ more) { p with extras := p.extras || b } = .ok p' := by
      intro is q b more h1 h2
      have hx : q.extras = p.extras := setItems_keeps env files is p q h1
      rw [setItems_append, setItems_extras, h1, ← hx]
      exact h2
    cases k with
    | arg => exact extra (by simp) (by simpa [consume] using h)
    | unknown => exact extra (by simp) (by simpa [consume] using h)
    | dashes => exact extra (by simp) (by simpa [consume] using h)
    | opt d s e =>
      unfold consume at h
      cases hu : unchain d s e with
      | none => rw [hu] at h; cases h
      | some r =>
        obtain ⟨fs, l, x⟩ := r
        obtain ⟨hf, hx, -, -⟩ := unchain_flags d s e fs l x hu
        rw [hu] at h
        cases x with
        | some v =>
          by_cases hdd : v = "--".toList
          · simp only [hdd, if_true, bind, Except.bind] at h
            split at h <;> cases h
          simp only [hdd, if_false, setFlags_items env files fs hf, bind, Except.bind] at h
          cases h1 : setItems env files (fs.map fun f => (f, [])) p with
          | error e => rw [h1] at h; cases h
          | ok q =>
            rw [h1] at h
            simp only at h
            cases h2 : setValue env files l v q with
            | error e => rw [h2] at h; cases h
            | ok q' =>
              rw [h2] at h
              obtain ⟨is, b, i1, i2⟩ := consume_ok env files n rest q' p' hn h
              refine ⟨_, b, .explicit w d s e fs l v rest is b hu hdd i1, ?_⟩
              rw [show fs.map (fun f => (f, ([] : Str))) ++ (l, v) :: is
                  = (fs.map (fun f => (f, [])) ++ [(l, v)]) ++ is by simp]
              refine items _ q' b is ?_ i2
              rw [setItems_append, h1]
              simp [setItems, setItem, hx rfl, bind, Except.bind, h2]
        | none =>
          simp only at h
          split at h
          · rename_i hl
            simp only [setFlags_items env files fs hf, bind, Except.bind] at h
            cases h1 : setItems env files (fs.map fun f => (f, [])) p with
            | error e => rw [h1] at h; cases h
            | ok q =>
              rw [h1] at h
              simp only at h
              cases h2 : setFlag l q with
              | error e => rw [h2] at h; cases h
              | ok q' =>
                rw [h2] at h
                obtain ⟨is, b, i1, i2⟩ := consume_ok env files n rest q' p' hn h
                refine ⟨_, b, .flag w d s e fs l rest is b hu hl i1, ?_⟩
                rw [show fs.map (fun f => (f, ([] : Str))) ++ (l, []) :: is
                    = (fs.map (fun f => (f, [])) ++ [(l, [])]) ++ is by simp]
                refine items _ q' b is ?_ i2
                rw [setItems_append, h1]
                simp [setItems, setItem, hl, bind, Except.bind, h2]
          · rename_i hl
            split at h
            · rename_i v rest'
              simp only [setFlags_items env files fs hf, bind, Except.bind] at h
              cases h1 : setItems env files (fs.map fun f => (f, [])) p with
              | error e => rw [h1] at h; cases h
              | ok q =>
                rw [h1] at h
                simp only at h
                cases h2 : setValue env files l v q with
                | error e => rw [h2] at h; cases h
                | ok q' =>
                  rw [h2] at h
                  obtain ⟨is, b, i1, i2⟩ := consume_ok env files n rest' q' p' (by simp at hn; omega) h
                  refine ⟨_, b, .value w d s e fs l v rest' is b hu (by simpa using hl) i1, ?_⟩
                  rw [show fs.map (fun f => (f, ([] : Str))) ++ (l, v) :: is
                      = (fs.map (fun f => (f, [])) ++ [(l, v)]) ++ is by simp]
                  refine items _ q' b is ?_ i2
                  rw [setItems_append, h1]
                  simp [setItems, setItem, hl, bind, Except.bind, h2]
            · cases h

/-! ## What options mean -/

/-- The last argument that is given for an option. -/
def lastOf (d : Dest) (is : List Item) : Option Str := ((is.filter (·.1 = d)).getLast?).map (·.2)

theorem lastOf_append (d : Dest) (is : List Item) (i : Item) :
    lastOf d (is ++ [i]) = if i.1 = d then some i.2 else lastOf d is := by
  unfold lastOf
  rw [List.filter_append]
  by_cases h : i.1 = d
  · simp [h]
  · simp [h]

/-- A number that may be given. -/
def Number (u : UniTable) (dflt : Int) (v : Option Str) (x : Int) : Prop :=
  (v = none ∧ x = dflt) ∨ ∃ s, v = some s ∧ u.intOf s = .ok x

/-- Options that are acceptable: no `--help`, numbers where they should be, files
that can be opened, not both a serial port and a TCP address. -/
structure Valid (env : Env) (files : Files) (is : List Item) : Prop where
  noHelp : ∀ v, (.help, v) ∉ is
  choice : ∀ v, (.verbosity, v) ∈ is → v ∈ levels
  port : ∀ v, (.brokerPort, v) ∈ is → ∃ i, env.uni.intOf v = .ok i
  keepalive : ∀ v, (.keepalive, v) ∈ is → ∃ i, env.uni.intOf v = .ok i
  timesync : ∀ v, (.timesync, v) ∈ is → ∃ i, env.uni.intOf v = .ok i
  auth : ∀ v, (.auth, v) ∈ is → ∃ x, files.text v = some x
  project : ∀ v, (.project, v) ∈ is → ∃ x, files.binary v = some x
  onePort : ∀ v w, ¬ ((.serial, v) ∈ is ∧ (.tcp, w) ∈ is)

/-- The values that the options give. -/
structure Filled (env : Env) (files : Files) (is : List Item) (q : Parsed) : Prop where
  address : q.brokerAddress = lastOf .brokerAddress is
  port : Number env.uni 0 (lastOf .brokerPort is) q.brokerPort
  keepalive : Number env.uni 60 (lastOf .keepalive is) q.keepalive
  timesync : Number env.uni 300 (lastOf .timesync is) q.timesync
  auth : q.auth = (lastOf .auth is).bind files.text
  project : q.project = (lastOf .project is).bind files.binary
  ca : q.ca = lastOf .ca is
  clientCert : q.clientCert = lastOf .clientCert is
  clientKey : q.clientKey = lastOf .clientKey is
  serial : q.serial = lastOf .serial is
  tcp : q.tcp = lastOf .tcp is
  disableTls : q.disableTls = (lastOf .disableTls is).isSome
  noClock : q.noClock = (lastOf .noClock is).isSome
  extras : q.extras = false

theorem lastOf_some (d : Dest) (is : List Item) : (lastOf d is).isSome = true ↔ ∃ v, (d, v) ∈ is := by
  unfold lastOf
  rw [Option.isSome_map, List.getLast?_isSome]
  constructor
  · intro h
    obtain ⟨⟨d', v⟩, hx⟩ := List.exists_mem_of_ne_nil _ h
    simp only [List.mem_filter, decide_eq_true_eq] at hx
    exact ⟨v, hx.2 ▸ hx.1⟩
  · rintro ⟨v, hv⟩ h
    have : (d, v) ∈ is.filter (·.1 = d) := by simp [hv]
    rw [h] at this
    cases this

theorem setItem_filled (env : Env) (files : Files) (is : List Item) (i : Item) (p q : Parsed)
    (hf : Filled env files is p) (h : setItem env files i p = .ok q) : Filled env files (is ++ [i]) q := by
  obtain ⟨d, v⟩ := i
  obtain ⟨h1, h2, h3, h4, h5, h6, h7, h8, h9, h10, h11, h12, h13, h14⟩ := hf
  cases d <;> simp only [setItem, Dest.isFlag, setFlag, setValue, setInt, if_true, Bool.false_eq_true, if_false] at h <;>
    (try split at h) <;> cases h <;>
    constructor <;> simp_all [lastOf_append, Number]

theorem setItem_valid (env : Env) (files : Files) (is : List Item) (i : Item) (p : Parsed)
    (hf : Filled env files is p) (hv : Valid env files (is ++ [i])) : ∃ q, setItem env files i p = .ok q := by
  obtain ⟨d, v⟩ := i
  have hs := lastOf_some .serial is
  have ht := lastOf_some .tcp is
  rw [← hf.serial] at hs
  rw [← hf.tcp] at ht
  cases d <;> simp only [setItem, Dest.isFlag, setFlag, setValue, setInt, if_true, Bool.false_eq_true, if_false]
  case help => exact absurd (by simp) (hv.noHelp v)
  case verbosity => rw [if_pos (levels_eq ▸ hv.choice v (by simp))]; exact ⟨_, rfl⟩
  case brokerPort => obtain ⟨x, hx⟩ := hv.port v (by simp); rw [hx]; exact ⟨_, rfl⟩
  case keepalive => obtain ⟨x, hx⟩ := hv.keepalive v (by simp); rw [hx]; exact ⟨_, rfl⟩
  case timesync => obtain ⟨x, hx⟩ := hv.timesync v (by simp); rw [hx]; exact ⟨_, rfl⟩
  case auth => obtain ⟨x, hx⟩ := hv.auth v (by simp); rw [hx]; exact ⟨_, rfl⟩
  case project => obtain ⟨x, hx⟩ := hv.project v (by simp); rw [hx]; exact ⟨_, rfl⟩
  case serial =>
    rw [if_neg]
    · exact ⟨_, rfl⟩
    · intro h
      obtain ⟨w, hw⟩ := ht.1 h
      exact hv.onePort v w ⟨by simp, by simp [hw]⟩
  case tcp =>
    rw [if_neg]
    · exact ⟨_, rfl⟩
    · intro h
      obtain ⟨w, hw⟩ := hs.1 h
      exact hv.onePort w v ⟨by simp [hw], by simp⟩
  all_goals exact ⟨_, rfl⟩

theorem setItem_only (env : Env) (files : Files) (is : List Item) (i : Item) (p q : Parsed)
    (hf : Filled env files is p) (hv : Valid env files is) (h : setItem env files i p = .ok q) :
    Valid env files (is ++ [i]) := by
  obtain ⟨d, v⟩ := i
  have hs := lastOf_some .serial is
  have ht := lastOf_some .tcp is
  rw [← hf.serial] at hs
  rw [← hf.tcp] at ht
  obtain ⟨h1, h2, h3, h4, h5, h6, h7, h8⟩ := hv
  cases d <;> simp only [setItem, Dest.isFlag, setFlag, setValue, setInt, if_true, Bool.false_eq_true, if_false] at h <;>
    (try split at h) <;> cases h <;>
    constructor <;> simp_all
  all_goals first
    | exact h8
    | (intro v' h
       rcases h with h | rfl
       · first | exact h2 v' h | exact h3 v' h | exact h4 v' h | exact h5 v' h | exact h6 v' h | exact h7 v' h
       · first | assumption | (rw [levels_eq]; assumption) | exact ⟨_, ‹_›⟩)

theorem setItems_valid (env : Env) (files : Files) (is : List Item) :
    (∀ q, setItems env files is {} = .ok q → Filled env files is q ∧ Valid env files is) ∧
    (Valid env files is → ∃ q, setItems env files is {} = .ok q) := by
  generalize hn : is.length = n
  induction n generalizing is with
  | zero =>
    have := List.length_eq_zero_iff.1 hn
    subst this
    refine ⟨?_, fun _ => ⟨{}, rfl⟩⟩
    intro q h
    injection h with h
    subst h
    exact ⟨by constructor <;> simp [lastOf, Number], by constructor <;> simp⟩
  | succ n ih =>
    rcases List.eq_nil_or_concat is with rfl | ⟨is', i, rfl⟩
    · simp at hn
    · rw [List.concat_eq_append] at hn ⊢
      obtain ⟨ih1, ih2⟩ := ih is' (by simp at hn; exact hn)
      constructor
      · intro q h
        rw [setItems_append] at h
        simp only [bind, Except.bind] at h
        cases h1 : setItems env files is' {} with
        | error e => rw [h1] at h; cases h
        | ok p =>
          rw [h1] at h
          simp only [setItems, bind, Except.bind] at h
          cases h2 : setItem env files i p with
          | error e => rw [h2] at h; cases h
          | ok q' =>
            rw [h2] at h
            injection h with h
            subst h
            obtain ⟨j1, j2⟩ := ih1 p h1
            exact ⟨setItem_filled env files is' i p q' j1 h2, setItem_only env files is' i p q' j1 j2 h2⟩
      · intro hv
        have hv' : Valid env files is' := by
          obtain ⟨h1, h2, h3, h4, h5, h6, h7, h8⟩ := hv
          constructor <;> simp_all
          exact fun v w h => (h8 v w (.inl h)).1
        obtain ⟨p, hp⟩ := ih2 hv'
        obtain ⟨q, hq⟩ := setItem_valid env files is' i p (ih1 p hp).1 hv
        refine ⟨q, ?_⟩
        rw [setItems_append, hp]
        simp [setItems, bind, Except.bind, hq]

/-! ## Words -/

/-! ## C93 -/

/-- A command line that consists of such options. -/
inductive Spelled : List Str → List Item → Prop
  | nil : Spelled [] []
  | cons (ws more : List Str) (i : Item) (is : List Item) (h : Spells (names daemonManual) (flags daemonManual) ws i) (hs : Spelled more is) :
      Spelled (ws ++ more) (i :: is)

/-- What the options ask for. -/
structure Means (env : Env) (files : Files) (is : List Item) (o : Daemon.Options) : Prop where
  address : lastOf .brokerAddress is = some o.brokerAddress
  port : Number env.uni 0 (lastOf .brokerPort is) o.brokerPort
  keepalive : Number env.uni 60 (lastOf .keepalive is) o.keepalive
  timesync : Number env.uni 300 (lastOf .timesync is) o.timesync
  auth : o.auth = (lastOf .auth is).bind files.text
  project : o.project = (lastOf .project is).bind files.binary
  ca : o.ca = lastOf .ca is
  clientCert : o.clientCert = lastOf .clientCert is
  clientKey : o.clientKey = lastOf .clientKey is
  serial : o.serial = lastOf .serial is
  tcp : o.tcp = lastOf .tcp is
  disableTls : o.disableTls = (lastOf .disableTls is).isSome
  noClock : o.noClock = (lastOf .noClock is).isSome
  onePort : (o.serial.isSome ∧ o.tcp = none) ∨ (o.serial = none ∧ o.tcp.isSome)

theorem consume_spelled (env : Env) (files : Files) (argv : List Str) (is : List Item) (h : Spelled argv is) :
    ∃ ws, classifyAll env.uni argv = some ws ∧ ∀ p, consume env files ws p = setItems env files is p := by
  induction h with
  | nil => exact ⟨[], rfl, fun p => by simp [consume, setItems]⟩
  | cons ws more i is h hs ih =>
    obtain ⟨r, h1, h2⟩ := ih
    rw [daemon_names, daemon_flags] at h
    cases h with
    | flag p d h hp hf =>
      refine ⟨_, classifyAll_cons _ _ _ _ _ hp (classify_name table _ p d h) h1, fun q => ?_⟩
      simp only [consume, ArgParse.unchain, hf, if_true, setFlags, setItems, setItem, bind, Except.bind]
      cases setFlag d q with
      | error e => rfl
      | ok q' => exact h2 q'
    | separate p d v h hp hf hv =>
      have hv' : v ≠ "--".toList := by rintro rfl; exact hv rfl
      refine ⟨_, classifyAll_cons _ _ _ _ _ hp (classify_name table _ p d h)
        (classifyAll_cons _ v _ _ _ hv' (classify_arg _ v hv) h1), fun q => ?_⟩
      simp only [consume, ArgParse.unchain, hf, setFlags, setItems, setItem, bind, Except.bind, Bool.false_eq_true, if_false]
      cases setValue env files d v q with
      | error e => rfl
      | ok q' => exact h2 q'
    | equals p d v h hf hv =>
      have hw : p ++ '=' :: v ≠ "--".toList := by
        intro e
        have : '=' ∈ "--".toList := by rw [← e]; simp
        exact absurd this (by decide)
      refine ⟨_, classifyAll_cons _ _ _ _ _ hw (classify_equals table _ p d v h) h1, fun q => ?_⟩
      simp only [consume, unchain_value _ _ _ hf, hf, hv, setFlags, setItems, setItem, bind, Except.bind, Bool.false_eq_true,
        if_false]
      cases setValue env files d v q with
      | error e => rfl
      | ok q' => exact h2 q'
    | joined c d v h hf hv he hd =>
      have hw : '-' :: c :: v ≠ "--".toList := by
        intro e
        simp at e
        exact hv e.2
      refine ⟨_, classifyAll_cons _ _ _ _ _ hw (classify_joined table _ c d v h hv he) h1, fun q => ?_⟩
      simp only [consume, unchain_value _ _ _ hf, hf, hd, setFlags, setItems, setItem, bind, Except.bind, Bool.false_eq_true,
        if_false]
      cases setValue env files d v q with
      | error e => rfl
      | ok q' => exact h2 q'

theorem finish_means (env : Env) (files : Files) (is : List Item) (q : Parsed) (o : Daemon.Options)
    (hf : Filled env files is q) (hv : Valid env files is) (h : finish q = .ok o) : Means env files is o := by
  have hs := lastOf_some .serial is
  have ht := lastOf_some .tcp is
  unfold finish at h
  split at h
  · cases h
  · rename_i a ha
    split at h
    · cases h
    · rename_i hn
      split at h
      · cases h
      · injection h with h
        subst h
        refine ⟨by rw [← hf.address, ha], hf.port, hf.keepalive, hf.timesync, hf.auth, hf.project, hf.ca, hf.clientCert,
          hf.clientKey, hf.serial, hf.tcp, hf.disableTls, hf.noClock, ?_⟩
        show (q.serial.isSome ∧ q.tcp = none) ∨ (q.serial = none ∧ q.tcp.isSome)
        rw [hf.serial, hf.tcp] at hn ⊢
        cases e1 : lastOf .serial is with
        | none =>
          cases e2 : lastOf .tcp is with
          | none => rw [e1, e2] at hn; simp at hn
          | some y => simp
        | some x =>
          cases e2 : lastOf .tcp is with
          | none => simp
          | some y =>
            obtain ⟨v, h1⟩ := hs.1 (by rw [e1]; rfl)
            obtain ⟨w, h2⟩ := ht.1 (by rw [e2]; rfl)
            exact absurd ⟨h1, h2⟩ (hv.onePort v w)

theorem number_unique (u : UniTable) (dflt : Int) (v : Option Str) (x y : Int) (h1 : Number u dflt v x)
    (h2 : Number u dflt v y) : x = y := by
  rcases h1 with ⟨h1, rfl⟩ | ⟨s, h1, h3⟩ <;> rcases h2 with ⟨h2, rfl⟩ | ⟨s', h2, h4⟩
  · rfl
  · rw [h1] at h2; cases h2
  · rw [h1] at h2; cases h2
  · rw [h1] at h2
    injection h2 with h2
    subst h2
    rw [h3] at h4
    injection h4

theorem means_finish (env : Env) (files : Files) (is : List Item) (q : Parsed) (o : Daemon.Options)
    (hf : Filled env files is q) (hm : Means env files is o) : finish q = .ok o := by
  obtain ⟨m1, m2, m3, m4, m5, m6, m7, m8, m9, m10, m11, m12, m13, m14⟩ := hm
  obtain ⟨f1, f2, f3, f4, f5, f6, f7, f8, f9, f10, f11, f12, f13, f14⟩ := hf
  have n2 := number_unique _ _ _ _ _ m2 f2
  have n3 := number_unique _ _ _ _ _ m3 f3
  have n4 := number_unique _ _ _ _ _ m4 f4
  unfold finish
  rw [f1, m1]
  simp only
  rw [if_neg, if_neg]
  · rw [f5, f6, f7, f8, f9, f10, f11, f12, f13, ← n2, ← n3, ← n4, ← m5, ← m6, ← m7, ← m8, ← m9, ← m10, ← m11, ← m12, ← m13]
  · simp [f14]
  · rw [f10, f11, ← m10, ← m11]
    rintro ⟨h1, h2⟩
    rw [h1, h2] at m14
    simp at m14

/-- C93: a command line of options in any order, each written in any of the usual
ways, is accepted iff the options are valid, with a broker and one of the two ports,
and what comes out is what the last of each says. -/
theorem C93_spelled (env : Env) (files : Files) (argv : List Str) (is : List Item) (h : Spelled argv is)
    (o : Daemon.Options) : parse env files argv = .ok o ↔ Valid env files is ∧ Means env files is o := by
  obtain ⟨ws, h1, h2⟩ := consume_spelled env files argv is h
  obtain ⟨v1, v2⟩ := setItems_valid env files is
  unfold parse
  rw [h1]
  simp only [h2, bind, Except.bind]
  constructor
  · intro h
    cases e : setItems env files is {} with
    | error _ => rw [e] at h; cases h
    | ok q =>
      rw [e] at h
      obtain ⟨hf, hv⟩ := v1 q e
      exact ⟨hv, finish_means env files is q o hf hv h⟩
  · rintro ⟨hv, hm⟩
    obtain ⟨q, e⟩ := v2 hv
    rw [e]
    exact means_finish env files is q o (v1 q e).1 hm

/-! ## Every command line -/

theorem reads_dashes (ws : List (Str × Word)) (is : List Item) (b : Bool) (h : Reads ws is b) (hb : b = false) :
    ∀ w, (w, .dashes) ∉ ws := by
  induction h with
  | nil => simp
  | extra => cases hb
  | explicit w d s e fs l v rest is b hu hv h ih => simpa using ih hb
  | flag w d s e fs l rest is b hu hl h ih => simpa using ih hb
  | value w d s e fs l v rest is b hu hl h ih => simpa using ih hb

/-- Where options come from. -/
structure From (ws : List (Str × Word)) (is : List Item) : Prop where
  all : ∀ d s e w, (w, .opt d s e) ∈ ws → (∃ v, (d, v) ∈ is) ∧ (d.isFlag = true → s = false → e = none)
  only : ∀ d v, (d, v) ∈ is → ∃ w d' s e more, (w, .opt d' s e) ∈ ws ∧ (d = d' ∨ d ∈ more) ∧
      (∀ f ∈ d' :: more, ∃ v', (f, v') ∈ is) ∧
      (∀ f ∈ more, ∃ c, (['-', c], f) ∈ optionStrings) ∧ (more ≠ [] → d'.isFlag = true ∧ s = true)
  values : ∀ d v, (d, v) ∈ is → d.isFlag = false →
      (∃ x ∈ ws, v = x.1) ∨ ∃ w d' s t, (w, .opt d' s (some t)) ∈ ws ∧ v <:+ t

theorem from_step (w : Str) (d : Dest) (s : Bool) (e : Option Str) (fs : List Dest) (l : Dest) (x : Option Str) (v : Str)
    (rest ws : List (Str × Word)) (is : List Item) (hu : unchain d s e = some (fs, l, x)) (h : From rest is)
    (h1 : (w, .opt d s e) ∈ ws) (h2 : ∀ y ∈ rest, y ∈ ws)
    (h3 : ∀ d' s' e' w', (w', .opt d' s' e') ∈ ws → (w', ArgParse.Word.opt d' s' e') = (w, .opt d s e) ∨ (w', ArgParse.Word.opt d' s' e') ∈ rest)
    (h4 : l.isFlag = true ∨ (∃ y ∈ ws, v = y.1) ∨ x = some v) :
    From ws (fs.map (fun f => (f, [])) ++ (l, v) :: is) := by
  obtain ⟨more, m1, m2, m3⟩ := unchain_more d s e fs l x hu
  obtain ⟨f1, f2, -, f4⟩ := unchain_flags d s e fs l x hu
  have hall : ∀ f ∈ d :: more, ∃ v', (f, v') ∈ fs.map (fun f => (f, ([] : Str))) ++ (l, v) :: is := by
    intro f hf
    rw [← m1] at hf
    rcases List.mem_append.1 hf with hf | hf
    · exact ⟨[], by simp [hf]⟩
    · simp only [List.mem_singleton] at hf
      exact ⟨v, by simp [hf]⟩
  constructor
  · intro d' s' e' w' hw
    rcases h3 d' s' e' w' hw with hw | hw
    · injection hw with _ hw
      injection hw with a1 a2 a3
      subst a1 a2 a3
      refine ⟨hall d' (by simp), fun hf hs => ?_⟩
      subst hs
      cases e' with
      | none => rfl
      | some t => simp [ArgParse.unchain, hf] at hu
    · obtain ⟨⟨v', hv'⟩, j⟩ := h.all d' s' e' w' hw
      exact ⟨⟨v', by simp [hv']⟩, j⟩
  · intro d' v' hv'
    have cases' : d' ∈ fs ++ [l] ∨ (d', v') ∈ is := by
      rcases List.mem_append.1 hv' with hm | hm
      · simp only [List.mem_map, Prod.mk.injEq] at hm
        obtain ⟨f, hf, rfl, -⟩ := hm
        exact .inl (by simp [hf])
      · rcases List.mem_cons.1 hm with hm | hm
        · injection hm with hm _
          exact .inl (by simp [hm])
        · exact .inr hm
    rcases cases' with hm | hm
    · rw [m1] at hm
      exact ⟨w, d, s, e, more, h1, List.mem_cons.1 hm, hall, m2, m3⟩
    · obtain ⟨w', d'', s', e', more', j1, j2, j3, j4⟩ := h.only d' v' hm
      exact ⟨w', d'', s', e', more', h2 _ j1, j2, fun f hf => by
        obtain ⟨v'', hv''⟩ := j3 f hf
        exact ⟨v'', by simp [hv'']⟩, j4⟩
  · intro d' v' hv' hf
    rcases List.mem_append.1 hv' with hm | hm
    · simp only [List.mem_map, Prod.mk.injEq] at hm
      obtain ⟨f, hf', rfl, -⟩ := hm
      rw [f1 _ hf'] at hf
      cases hf
    · rcases List.mem_cons.1 hm with hm | hm
      · injection hm with a1 a2
        subst a1 a2
        rcases h4 with h4 | h4 | h4
        · rw [hf] at h4; cases h4
        · exact .inl h4
        · obtain ⟨t, ht, hs⟩ := f4 _ h4
          subst ht
          exact .inr ⟨w, d, s, t, h1, hs⟩
      · rcases h.values d' v' hm hf with ⟨y, hy, h5⟩ | ⟨w', d'', s', t, h5, h6⟩
        · exact .inl ⟨y, h2 _ hy, h5⟩
        · exact .inr ⟨w', d'', s', t, h2 _ h5, h6⟩

theorem reads_from (ws : List (Str × Word)) (is : List Item) (b : Bool) (h : Reads ws is b) : From ws is := by
  induction h with
  | nil => constructor <;> simp
  | extra w k rest is b hk h ih =>
    obtain ⟨i1, i2, i3⟩ := ih
    refine ⟨fun d s e w' hw => ?_, fun d v hv => ?_, fun d v hv hf => ?_⟩
    · rcases List.mem_cons.1 hw with hw | hw
      · injection hw with _ hw
        exact absurd hw.symm (hk d s e)
      · exact i1 d s e w' hw
    · obtain ⟨w', d', s, e, more, j1, j2⟩ := i2 d v hv
      exact ⟨w', d', s, e, more, by simp [j1], j2⟩
    · rcases i3 d v hv hf with ⟨x, hx, h3⟩ | ⟨w', d', s, t, h1, h2⟩
      · exact .inl ⟨x, by simp [hx], h3⟩
      · exact .inr ⟨w', d', s, t, by simp [h1], h2⟩
  | explicit w d s e fs l v rest is b hu hv h ih =>
    exact from_step w d s e fs l _ v rest _ is hu ih (by simp) (fun y hy => by simp [hy])
      (fun d' s' e' w' hw => List.mem_cons.1 hw) (.inr (.inr rfl))
  | flag w d s e fs l rest is b hu hl h ih =>
    exact from_step w d s e fs l _ [] rest _ is hu ih (by simp) (fun y hy => by simp [hy])
      (fun d' s' e' w' hw => List.mem_cons.1 hw) (.inl hl)
  | value w d s e fs l v rest is b hu hl h ih =>
    refine from_step w d s e fs l _ v rest _ is hu ih (by simp) (fun y hy => by simp [hy])
      (fun d' s' e' w' hw => ?_) (.inr (.inl ⟨(v, .arg), by simp, rfl⟩))
    rcases List.mem_cons.1 hw with hw | hw
    · exact .inl hw
    · rcases List.mem_cons.1 hw with hw | hw
      · cases hw
      · exact .inr hw

/-- What is read of a command line that is accepted. -/
theorem parse_reads (env : Env) (files : Files) (argv : List Str) (o : Daemon.Options) (h : parse env files argv = .ok o) :
    ∃ ws is, classifyAll env.uni argv = some ws ∧ Reads ws is false ∧ Valid env files is ∧ Means env files is o := by
  unfold parse at h
  split at h
  · cases h
  · rename_i ws hc
    simp only [bind, Except.bind] at h
    cases e : consume env files ws {} with
    | error _ => rw [e] at h; cases h
    | ok q =>
      rw [e] at h
      simp only at h
      obtain ⟨is, b, h1, h2⟩ := consume_ok env files ws.length ws {} q (Nat.le_refl _) e
      have hb : b = false := by
        rw [setItems_extras] at h2
        cases e2 : setItems env files is {} with
        | error _ => rw [e2] at h2; cases h2
        | ok q' =>
          rw [e2] at h2
          injection h2 with h2
          unfold finish at h
          split at h
          · cases h
          · split at h
            · cases h
            · split at h
              · cases h
              · rename_i hx
                rw [← h2] at hx
                simpa using hx
      subst hb
      obtain ⟨hf, hv⟩ := (setItems_valid env files is).1 q h2
      exact ⟨ws, is, hc, h1, hv, finish_means env files is q o hf hv h⟩

/-- What a command line that is accepted is made of. -/
theorem parse_ok (env : Env) (files : Files) (argv : List Str) (o : Daemon.Options) (h : parse env files argv = .ok o) :
    ∃ ws is, ws.map (·.1) = argv ∧ (∀ x ∈ ws, classify env.uni x.1 = some x.2) ∧ From ws is ∧ Valid env files is ∧
      Means env files is o := by
  obtain ⟨ws, is, hc, h1, hv, hm⟩ := parse_reads env files argv o h
  obtain ⟨w1, w2⟩ := classifyAll_words _ _ _ hc
  rcases w2 with ⟨w, hw⟩ | w2
  · exact absurd hw (reads_dashes ws is false h1 rfl w)
  · exact ⟨ws, is, w1, w2, reads_from ws is false h1, hv, hm⟩

theorem reads_words (ws : List (Str × Word)) (is : List Item) (b : Bool) (h : Reads ws is b) (hb : b = false) :
    ArgParse.readWords optionStrings Dest.isFlag ws [] = some (is, []) := by
  induction h with
  | nil => simp [ArgParse.readWords, ArgParse.takeAll]
  | extra => cases hb
  | explicit w d s e fs l v rest is b hu hv h ih =>
    rw [ArgParse.readWords]
    simp only [show ArgParse.unchain optionStrings Dest.isFlag d s e = _ from hu, if_neg hv, ih hb, Option.map_some]
  | flag w d s e fs l rest is b hu hl h ih =>
    rw [ArgParse.readWords]
    simp only [show ArgParse.unchain optionStrings Dest.isFlag d s e = _ from hu, hl, if_true, ih hb, Option.map_some]
  | value w d s e fs l v rest is b hu hl h ih =>
    rw [ArgParse.readWords]
    simp only [show ArgParse.unchain optionStrings Dest.isFlag d s e = _ from hu, hl, Bool.false_eq_true, if_false, ih hb,
      Option.map_some]

theorem words_consume (env : Env) (files : Files) : ∀ (n : Nat) (ws : List (Str × Word)) (is : List Item) (vs : List (List Str)),
    ws.length ≤ n → ArgParse.readWords optionStrings Dest.isFlag ws [] = some (is, vs) →
    ∀ p, consume env files ws p = setItems env files is p
  | n, [], is, vs, _, h, p => by
    simp only [ArgParse.readWords, ArgParse.takeAll, if_true, Option.some.injEq, Prod.mk.injEq] at h
    rw [← h.1]
    simp [consume, setItems]
  | 0, _ :: _, _, _, hn, _, _ => by simp at hn
  | n + 1, (w, k) :: rest, is, vs, hn, h, p => by
    simp only [List.length_cons, Nat.add_le_add_iff_right] at hn
    cases k with
    | arg => rw [readWords_none w _ rest (.inl rfl)] at h; cases h
    | dashes => rw [readWords_none w _ rest (.inr rfl)] at h; cases h
    | unknown => simp [ArgParse.readWords] at h
    | opt d s e =>
      rw [ArgParse.readWords] at h
      unfold consume
      cases hu : ArgParse.unchain optionStrings Dest.isFlag d s e with
      | none => rw [hu] at h; cases h
      | some t =>
        obtain ⟨fs, l, x⟩ := t
        obtain ⟨hf, hx, -, -⟩ := unchain_flags d s e fs l x hu
        have step : ∀ (v : Str) (y : List Item) (r : List (Str × Word)), (∀ q, consume env files r q = setItems env files y q) →
            (setItems env files (fs.map (·, [])) p >>= setItem env files (l, v) >>= consume env files r) =
              setItems env files (fs.map (·, []) ++ (l, v) :: y) p := by
          intro v y r ih
          rw [setItems_append]
          cases setItems env files (fs.map (·, [])) p with
          | error _ => rfl
          | ok q =>
            simp only [bind, Except.bind, setItems]
            cases setItem env files (l, v) q with
            | error _ => rfl
            | ok q' => exact ih q'
        rw [hu] at h
        rw [show unchain d s e = some (fs, l, x) from hu]
        cases x with
        | some v =>
          simp only at h ⊢
          split at h
          · cases h
          · rename_i hv
            rw [Option.map_eq_some_iff] at h
            obtain ⟨y, h3, h4⟩ := h
            simp only [Prod.mk.injEq] at h4
            obtain ⟨rfl, rfl⟩ := h4
            rw [if_neg hv, setFlags_items env files fs hf]
            have hl : l.isFlag = false := hx rfl
            rw [← step v y.1 rest (words_consume env files n rest y.1 y.2 hn h3)]
            have : setItem env files (l, v) = setValue env files l v := by funext q; simp [setItem, hl]
            rw [this]
        | none =>
          simp only at h ⊢
          split at h
          · rename_i hl
            rw [Option.map_eq_some_iff] at h
            obtain ⟨y, h3, h4⟩ := h
            simp only [Prod.mk.injEq] at h4
            obtain ⟨rfl, rfl⟩ := h4
            rw [if_pos hl, setFlags_items env files fs hf]
            rw [← step [] y.1 rest (words_consume env files n rest y.1 y.2 hn h3)]
            have : setItem env files (l, []) = setFlag l := by funext q; simp [setItem, hl]
            rw [this]
          · rename_i hl
            rw [if_neg hl]
            split at h
            · rename_i v r'
              rw [Option.map_eq_some_iff] at h
              obtain ⟨y, h3, h4⟩ := h
              simp only [Prod.mk.injEq] at h4
              obtain ⟨rfl, rfl⟩ := h4
              simp only
              rw [setFlags_items env files fs hf]
              rw [← step v y.1 r' (words_consume env files n r' y.1 y.2 (by simp at hn; omega) h3)]
              have : setItem env files (l, v) = setValue env files l v := by funext q; simp [setItem, hl]
              rw [this]
            · cases h

/-- C93: every command line. It is accepted iff it is made of options, written in any of
the ways there are, that are valid, with a broker and one of the two ports; and what
comes out is what the last of each says. -/
theorem C93_line (env : Env) (files : Files) (argv : List Str) (o : Daemon.Options) :
    parse env files argv = .ok o ↔
      ∃ is, Line (names daemonManual) (flags daemonManual) env.uni argv is none ∧ Valid env files is ∧ Means env files is o := by
  rw [daemon_names, daemon_flags]
  constructor
  · intro h
    obtain ⟨ws, is, hc, h1, hv, hm⟩ := parse_reads env files argv o h
    refine ⟨is, ?_, hv, hm⟩
    exact ((words_line table env.uni _ argv ws (Nat.le_refl _) hc is []).1 (reads_words ws is false h1 rfl)).2
  · rintro ⟨is, hl, hv, hm⟩
    obtain ⟨ws, h1, h2⟩ := line_words table env.uni argv is none hl
    simp only at h2
    obtain ⟨v1, v2⟩ := setItems_valid env files is
    obtain ⟨q, e⟩ := v2 hv
    unfold parse
    simp only [show classifyAll env.uni argv = _ from h1, words_consume env files _ ws is [] (Nat.le_refl _) h2, e, bind, Except.bind]
    exact means_finish env files is q o (v1 q e).1 hm

theorem names_tls (w : Str) :
    Names optionStrings w .disableTls ∧ isShort w = false ↔ "--broker-d".toList <+: w ∧ w <+: "--broker-disable-tls".toList :=
  names_long (T := optionStrings) .disableTls "--broker-disable-tls".toList "--broker-d".toList "--broker-".toList "--broker-auth".toList .auth
    (by decide) (by decide) (by decide) (by decide) (by decide +kernel) (by decide +kernel) (by decide) (by decide) (by decide) w

theorem names_clock (w : Str) :
    Names optionStrings w .noClock ∧ isShort w = false ↔ "--n".toList <+: w ∧ w <+: "--no-clock".toList :=
  names_long (T := optionStrings) .noClock "--no-clock".toList "--n".toList "--".toList "--broker-auth".toList .auth
    (by decide) (by decide) (by decide) (by decide) (by decide +kernel) (by decide +kernel) (by decide) (by decide) (by decide) w

/-- C93: TLS is disabled iff some word says so: `--broker-disable-tls` or an
abbreviation. -/
theorem C93_tls (env : Env) (files : Files) (argv : List Str) (o : Daemon.Options) (h : parse env files argv = .ok o) :
    o.disableTls = true ↔ ∃ w ∈ argv, "--broker-d".toList <+: w ∧ w <+: "--broker-disable-tls".toList := by
  obtain ⟨ws, is, h1, h2, hf, hv, hm⟩ := parse_ok env files argv o h
  have noShort : ∀ x ∈ optionStrings, x.2 = .disableTls → isShort x.1 = false := by decide +kernel
  rw [hm.disableTls, lastOf_some]
  constructor
  · rintro ⟨v, hv⟩
    obtain ⟨w, d, s, e, more, j1, j2, -, j3, -⟩ := hf.only _ _ hv
    rcases j2 with rfl | j2
    · have hs : s = false ∧ ∃ p, Names optionStrings p .disableTls ∧ isShort p = false ∧
          ((e = none ∧ w = p) ∨ ∃ v, e = some v ∧ w = p ++ '=' :: v) := by
        rcases classify_inv table _ _ _ _ _ (h2 _ j1) with hs | ⟨-, c, hc, -⟩
        · exact hs
        · have h3 := noShort _ hc rfl
          have h4 := (table.long _ hc h3).2
          simp at h4
      obtain ⟨rfl, p, hp, hps, hw⟩ := hs
      have he := (hf.all _ _ _ _ j1).2 rfl rfl
      subst he
      rcases hw with ⟨-, rfl⟩ | ⟨v, hv, -⟩
      · exact ⟨w, (mem_words h1 w).2 ⟨_, j1⟩, (names_tls w).1 ⟨hp, hps⟩⟩
      · cases hv
    · obtain ⟨c, hc⟩ := j3 _ j2
      have h3 := noShort _ hc rfl
      have h4 := (table.long _ hc h3).2
      simp at h4
  · rintro ⟨w, hw, hn⟩
    obtain ⟨k, hk⟩ := (mem_words h1 w).1 hw
    have := classify_name table env.uni w _ ((names_tls w).2 hn).1
    have hc := (h2 _ hk).symm.trans this
    injection hc with hc
    simp only at hc
    subst hc
    exact (hf.all _ _ _ _ hk).1

/-- C93: the clock is disabled iff some word says so: `-C`, `--no-clock` or an
abbreviation. -/
theorem C93_clock (env : Env) (files : Files) (argv : List Str) (o : Daemon.Options) (h : parse env files argv = .ok o) :
    o.noClock = true ↔ ∃ w ∈ argv, "-C".toList <+: w ∨ "--n".toList <+: w ∧ w <+: "--no-clock".toList := by
  obtain ⟨ws, is, h1, h2, hf, hv, hm⟩ := parse_ok env files argv o h
  have noShort : ∀ x ∈ optionStrings, x.2 = .disableTls → isShort x.1 = false := by decide +kernel
  have short : ∀ x ∈ optionStrings, x.2 = .noClock → isShort x.1 = true → x.1 = "-C".toList := by decide +kernel
  have two : ∀ c d, (['-', c], d) ∈ optionStrings → isShort ['-', c] = true := by
    intro c d hc
    cases hb : isShort ['-', c] with
    | true => rfl
    | false => exact absurd (table.long _ hc hb).2 (by simp)
  rw [hm.noClock, lastOf_some]
  constructor
  · rintro ⟨v, hv'⟩
    obtain ⟨w, d, s, e, more, j1, j2, j3, j4, j5⟩ := hf.only _ _ hv'
    refine ⟨w, (mem_words h1 w).2 ⟨_, j1⟩, ?_⟩
    have hd : d = .noClock := by
      rcases j2 with rfl | j2
      · rfl
      · obtain ⟨k1, k2⟩ := j5 (by rintro rfl; cases j2)
        subst k2
        rcases classify_inv table _ _ _ _ _ (h2 _ j1) with ⟨hs, -⟩ | ⟨-, c, hc, -⟩
        · cases hs
        · cases d <;> simp [Dest.isFlag] at k1
          · obtain ⟨v', hh⟩ := j3 .help (by simp)
            exact absurd hh (hv.noHelp v')
          · have h3 := noShort _ hc rfl
            rw [two _ _ hc] at h3
            cases h3
          · rfl
    subst hd
    rcases classify_inv table _ _ _ _ _ (h2 _ j1) with ⟨rfl, p, hp, hps, hw⟩ | ⟨-, c, hc, hcw, -⟩
    · have he := (hf.all _ _ _ _ j1).2 rfl rfl
      subst he
      rcases hw with ⟨-, rfl⟩ | ⟨v, hv, -⟩
      · exact .inr ((names_clock w).1 ⟨hp, hps⟩)
      · cases hv
    · have hC : ['-', c] = "-C".toList := short _ hc rfl (two _ _ hc)
      rw [hC] at hcw
      exact .inl hcw
  · rintro ⟨w, hw, hn⟩
    obtain ⟨k, hk⟩ := (mem_words h1 w).1 hw
    have : ∃ s e, classify env.uni w = some (.opt .noClock s e) := by
      rcases hn with ⟨t, rfl⟩ | hn
      · have hc : (['-', 'C'], Dest.noClock) ∈ optionStrings := by decide +kernel
        cases t with
        | nil => exact ⟨_, _, classify_name table env.uni _ _ (.inl hc)⟩
        | cons x t =>
          by_cases hx : x = '='
          · subst hx
            exact ⟨_, _, classify_equals table env.uni ['-', 'C'] _ t (.inl hc)⟩
          · exact ⟨_, _, classify_joined table env.uni 'C' _ (x :: t) hc (by simp) (by simpa using hx)⟩
      · exact ⟨_, _, classify_name table env.uni w _ ((names_clock w).2 hn).1⟩
    obtain ⟨s, e, this⟩ := this
    have hc := (h2 _ hk).symm.trans this
    injection hc with hc
    simp only at hc
    subst hc
    exact (hf.all _ _ _ _ hk).1

/-- C93: what is connected to was given on the command line, and there is exactly one
of a serial port and a TCP address. -/
theorem C93_values (env : Env) (files : Files) (argv : List Str) (o : Daemon.Options) (h : parse env files argv = .ok o) :
    (∃ w ∈ argv, o.brokerAddress <:+ w) ∧
    ((∃ s w, o.serial = some s ∧ o.tcp = none ∧ w ∈ argv ∧ s <:+ w) ∨
      ∃ t w, o.tcp = some t ∧ o.serial = none ∧ w ∈ argv ∧ t <:+ w) := by
  obtain ⟨ws, is, h1, h2, hf, hv, hm⟩ := parse_ok env files argv o h
  have key : ∀ d v, d.isFlag = false → lastOf d is = some v → ∃ w ∈ argv, v <:+ w := by
    intro d v hd hl
    have hmem : (d, v) ∈ is := by
      unfold lastOf at hl
      rw [Option.map_eq_some_iff] at hl
      obtain ⟨⟨d', v'⟩, h3, h4⟩ := hl
      have h5 := List.mem_of_getLast? h3
      simp only [List.mem_filter, decide_eq_true_eq] at h5
      simp only at h4
      rw [← h5.2, ← h4]
      exact h5.1
    rcases hf.values d v hmem hd with ⟨x, hx, rfl⟩ | ⟨w, d', s, t, hw, hs⟩
    · exact ⟨x.1, (mem_words h1 _).2 ⟨x.2, hx⟩, List.suffix_refl _⟩
    · refine ⟨w, (mem_words h1 w).2 ⟨_, hw⟩, ?_⟩
      rcases classify_inv table _ _ _ _ _ (h2 _ hw) with ⟨-, p, -, -, hp⟩ | ⟨-, c, -, -, hc⟩
      · rcases hp with ⟨he, -⟩ | ⟨v', he, hw'⟩
        · cases he
        · injection he with he
          subst he
          have hw'' : w = p ++ '=' :: t := hw'
          rw [hw'']
          exact hs.trans ⟨p ++ ['='], by simp⟩
      · exact hs.trans (hc t rfl)
  refine ⟨key _ _ rfl hm.address, ?_⟩
  rcases hm.onePort with ⟨h3, h4⟩ | ⟨h3, h4⟩
  · obtain ⟨s, hs⟩ := Option.isSome_iff_exists.1 h3
    obtain ⟨w, hw, h5⟩ := key .serial s rfl (by rw [← hm.serial, hs])
    exact .inl ⟨s, w, hs, h4, hw, h5⟩
  · obtain ⟨s, hs⟩ := Option.isSome_iff_exists.1 h4
    obtain ⟨w, hw, h5⟩ := key .tcp s rfl (by rw [← hm.tcp, hs])
    exact .inr ⟨s, w, hs, h3, hw, h5⟩

/-! A command line in several spellings, and one with too much. -/

/-- No files. -/
def noFiles : Files := ⟨fun _ => none, fun _ => none⟩

example : (parse .ascii noFiles ["-b".toList, "mqtt".toList, "-s/dev/ttyUSB0".toList, "--timesync=-1".toList, "--no".toList]).toOption.map
    (fun o => ([some o.brokerAddress, o.serial, o.tcp], o.timesync, o.noClock, o.disableTls)) =
    some ([some "mqtt".toList, some "/dev/ttyUSB0".toList, none], -1, true, false) := by decide +kernel

example : Spelled ["-b".toList, "mqtt".toList, "-s/dev/ttyUSB0".toList, "--timesync=-1".toList, "--no".toList]
    [(.brokerAddress, "mqtt".toList), (.serial, "/dev/ttyUSB0".toList), (.timesync, "-1".toList), (.noClock, [])] :=
  .cons ["-b".toList, "mqtt".toList] _ _ _ (.separate _ _ _ (.inl (by decide +kernel)) (by decide) rfl (by decide))
    (.cons ["-s/dev/ttyUSB0".toList] _ _ _ (.joined 's' Dest.serial "/dev/ttyUSB0".toList (by decide +kernel) rfl (by decide) (by decide) (by decide))
      (.cons ["--timesync=-1".toList] _ _ _ (.equals "--timesync".toList Dest.timesync "-1".toList (.inl (by decide +kernel)) rfl (by decide))
        (.cons ["--no".toList] [] _ _ (.flag _ _ ((names_clock _).2 ⟨by decide, by decide⟩).1 (by decide) rfl) .nil)))

example : (parse .ascii noFiles ["-b".toList, "mqtt".toList, "-s".toList, "x".toList, "-t".toList, "y:1".toList]).toOption.isNone = true := by
  decide +kernel
example : (parse .ascii noFiles ["-b".toList, "mqtt".toList, "-s".toList, "x".toList, "y".toList]).toOption.isNone = true := by
  decide +kernel
example : (parse .ascii noFiles ["-b".toList, "mqtt".toList]).toOption.isNone = true := by decide +kernel
example : (parse .ascii noFiles ["-b".toList, "mqtt".toList, "-Csx".toList, "--broker-dis".toList]).toOption.map
    (fun o => (o.serial, o.noClock, o.disableTls)) = some (some ['x'], true, true) := by decide +kernel

end CBus.Props
