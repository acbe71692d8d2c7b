import Verif.Props.Startup
import Verif.Props.AuthFile

/-! # C168: what the password file has an effect on -/

namespace CBus.Props
open CBus CBus.Cbz CBus.Daemon CBus.Spec
variable {α : Type}

/-! ## What is asked for -/

/-- Two starts with the same steps, but for the user name and the password that the MQTT
client is given. -/
inductive SameSteps : List Act → List Act → Prop
  | nil : SameSteps [] []
  | step {l l' : List Act} (a : Act) : SameSteps l l' → SameSteps (a :: l) (a :: l')
  | left {l l' : List Act} (user pass : Str) : SameSteps l l' → SameSteps (.credentials user pass :: l) l'
  | right {l l' : List Act} (user pass : Str) : SameSteps l l' → SameSteps l (.credentials user pass :: l')

/-- Two starts that end in the same way: the same exception, or the daemon runs with the same
options and labels and the same TLS context. -/
inductive SameEnd : StartEnd α → StartEnd α → Prop
  | ended (e : End) : SameEnd (.ended e) (.ended e)
  | failed (e : PyErr) : SameEnd (.failed e) (.failed e)
  | running (h : Handler) (m m' : Session α) : m.context = m'.context → SameEnd (.running h m) (.running h m')

/-! ## Proofs -/

theorem SameSteps.refl : ∀ l, SameSteps l l
  | [] => .nil
  | a :: l => .step a (SameSteps.refl l)

/-- Only steps that tell the client a name and a password are lost. -/
theorem SameSteps.keeps {l l' : List Act} (h : SameSteps l l') (a : Act) (ha : ∀ u p, a ≠ .credentials u p) : a ∈ l ↔ a ∈ l' := by
  induction h with
  | nil => exact Iff.rfl
  | step b _ ih => rw [List.mem_cons, List.mem_cons, ih]
  | left u p _ ih => rw [List.mem_cons, ih]; exact or_iff_right (ha u p)
  | right u p _ ih => rw [List.mem_cons, ih]; exact (or_iff_right (ha u p)).symm

theorem perform_context [DecidableEq α] (w : World α) (m m' : Session α) (hm : m.context = m'.context) (a : Act) :
    (∃ e, perform w m a = .error e ∧ perform w m' a = .error e) ∨
    ∃ n n', perform w m a = .ok n ∧ perform w m' a = .ok n' ∧ n.context = n'.context := by
  cases a with
  | openSerial d =>
    simp only [perform]
    cases w.serial d with
    | error e => exact .inl ⟨e, rfl, rfl⟩
    | ok _ => exact .inr ⟨m, m', rfl, rfl, hm⟩
  | openTcp host port =>
    simp only [perform]
    cases w.tcp host port with
    | error e => exact .inl ⟨e, rfl, rfl⟩
    | ok _ => exact .inr ⟨m, m', rfl, rfl, hm⟩
  | credentials user pass => exact .inr ⟨_, _, rfl, rfl, hm⟩
  | tls ca cert key =>
    simp only [perform]
    cases tlsSet w ca cert key with
    | error e => exact .inl ⟨e, rfl, rfl⟩
    | ok _ => exact .inr ⟨_, _, rfl, rfl, rfl⟩
  | connectBroker a p k =>
    have hb : brokerConnect w m a p k = brokerConnect w m' a p k := by
      unfold brokerConnect handshake
      rw [hm]
    simp only [perform]
    rw [hb]
    cases brokerConnect w m' a p k with
    | error e => exact .inl ⟨e, rfl, rfl⟩
    | ok _ => exact .inr ⟨m, m', rfl, rfl, hm⟩

theorem performAll_same [DecidableEq α] (w : World α) {l l' : List Act} (h : SameSteps l l') : ∀ (m m' : Session α),
    m.context = m'.context →
    SameSteps (performAll w m l).1 (performAll w m' l').1 ∧
    ((∃ e, (performAll w m l).2 = .error e ∧ (performAll w m' l').2 = .error e) ∨
     ∃ n n', (performAll w m l).2 = .ok n ∧ (performAll w m' l').2 = .ok n' ∧ n.context = n'.context) := by
  induction h with
  | nil => exact fun m m' hm => ⟨.nil, .inr ⟨m, m', rfl, rfl, hm⟩⟩
  | step a _ ih =>
    intro m m' hm
    unfold performAll
    rcases perform_context w m m' hm a with ⟨e, h1, h2⟩ | ⟨n, n', h1, h2, hn⟩
    · rw [h1, h2]
      exact ⟨.nil, .inl ⟨e, rfl, rfl⟩⟩
    · rw [h1, h2]
      exact ⟨.step a (ih n n' hn).1, (ih n n' hn).2⟩
  | left u p _ ih =>
    intro m m' hm
    have h := ih { m with credentials := some (u, p) } m' hm
    exact ⟨.left u p h.1, h.2⟩
  | right u p _ ih =>
    intro m m' hm
    have h := ih m { m' with credentials := some (u, p) } hm
    exact ⟨.right u p h.1, h.2⟩

theorem connectBroker_same (env : Cbz.Env) (o : Daemon.Options) (t t' : Option Str) :
    SameSteps (connectBroker env { o with auth := t }) (connectBroker env { o with auth := t' }) := by
  cases t <;> cases t'
  · exact .refl _
  · exact .right _ _ (.refl _)
  · exact .left _ _ (.refl _)
  · exact .left _ _ (.right _ _ (.refl _))

theorem main_same (env : Cbz.Env) (o : Daemon.Options) (t t' : Option Str) :
    SameSteps (main env { o with auth := t }).1 (main env { o with auth := t' }).1 ∧
    (main env { o with auth := t }).2 = (main env { o with auth := t' }).2 := by
  have hb := connectBroker_same env o t t'
  have hp : connectPci env { o with auth := t } = connectPci env { o with auth := t' } := rfl
  unfold main
  rw [hp]
  generalize connectBroker env { o with auth := t } = b at hb ⊢
  generalize connectBroker env { o with auth := t' } = b' at hb ⊢
  generalize connectPci env { o with auth := t' } = c
  dsimp only
  by_cases hc : truthy o.clientCert = truthy o.clientKey
  · rw [if_neg (by simp [hc]), if_neg (by simp [hc])]
    cases c with
    | error e =>
      cases o.project with
      | none => exact ⟨.nil, rfl⟩
      | some f => rcases hr : readCbzLabels env f with _ | _ | _ <;> simp only [hr] <;> exact ⟨.nil, trivial⟩
    | ok a =>
      cases o.project with
      | none => exact ⟨.step a hb, rfl⟩
      | some f =>
        rcases hr : readCbzLabels env f with _ | _ | _ <;> simp only [hr] <;>
          first | exact ⟨.nil, trivial⟩ | exact ⟨.step a hb, trivial⟩
  · rw [if_pos hc, if_pos hc]
    exact ⟨.nil, rfl⟩

/-- C168: whatever is in the file with the password, and whether there is one, the daemon starts
in the same way: the same connections and TLS settings in the same order, until the same
exception or until it runs with the same options and labels. Only what the MQTT client is told
to be its user name and password differs. -/
theorem C168_startup [DecidableEq α] (w : World α) (env : Cbz.Env) (o : Daemon.Options) (t t' : Option Str) :
    SameSteps (startup w env { o with auth := t }).1 (startup w env { o with auth := t' }).1 ∧
    SameEnd (startup w env { o with auth := t }).2 (startup w env { o with auth := t' }).2 := by
  obtain ⟨h1, h2⟩ := main_same env o t t'
  unfold startup
  generalize main env { o with auth := t } = r at h1 h2
  generalize main env { o with auth := t' } = r' at h1 h2
  obtain ⟨l, e⟩ := r
  obtain ⟨l', e'⟩ := r'
  simp only at h1 h2
  subst h2
  cases e with
  | usage => exact ⟨h1, .ended _⟩
  | cbzError => exact ⟨h1, .ended _⟩
  | raised e => exact ⟨h1, .ended _⟩
  | running h =>
    obtain ⟨h3, h4⟩ := performAll_same w h1 {} {} rfl
    dsimp only
    rcases hx : performAll w {} l with ⟨x, x2⟩
    rcases hy : performAll w {} l' with ⟨y, y2⟩
    rw [hx, hy] at h3 h4
    rcases h4 with ⟨e, he, he'⟩ | ⟨n, n', he, he', hn⟩
    · simp only at he he'
      subst he he'
      exact ⟨h3, .failed e⟩
    · simp only at he he'
      subst he he'
      exact ⟨h3, .running h n n' hn⟩

/-- C168: of a file that cannot be decoded nothing is used, and the broker does not hear of the
daemon: all that may have been done is to open the connection to the PCI. -/
theorem C168_unreadable (charset : Charset) (env : Cbz.Env) (o : Daemon.Options) (content : Bytes) (h : charset content = none) :
    (∀ h, (mainFile charset env o content).2 ≠ .running h) ∧
    ∀ a ∈ (mainFile charset env o content).1, connectPci env o = .ok a := by
  have hp : connectPci env { o with auth := none } = connectPci env o := rfl
  unfold mainFile fileText
  rw [h]
  dsimp only
  rcases main_cases env { o with auth := none } with ⟨h1, h2⟩ | ⟨act, labels, h1, -, -, hm⟩
  · rcases hr : main env { o with auth := none } with ⟨l, e⟩
    rw [hr] at h1 h2
    simp only at h1 h2
    subst h1
    exact ⟨h2, by simp⟩
  · rw [hm]
    refine ⟨by simp, ?_⟩
    intro a ha
    rw [List.mem_singleton] at ha
    rw [ha, ← hp, h1]

/-- Not vacuous: with and without a password the daemon runs, and it tells the client. -/
example : (startup sampleWorld .ascii { sampleTls (some "ca.pem".toList) with auth := some "me\nsecret\n".toList }).1.length =
    (startup sampleWorld .ascii { sampleTls (some "ca.pem".toList) with auth := none }).1.length + 1 := by
  decide +kernel

/-- And steps of another kind are not forgotten. -/
example : ¬ SameSteps [.openTcp "a".toList 1] [.openTcp "a".toList 2] := by
  intro h
  have := (h.keeps (.openTcp "a".toList 1) (by simp)).1 List.mem_cons_self
  simp at this

end CBus.Props
