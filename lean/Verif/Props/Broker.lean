import Verif.Model.Broker

/-! # C120: a lost connection to the broker is made again -/

namespace CBus.Props
open CBus CBus.Daemon

/-- The claim: whatever has happened to the daemon since it connected to the broker, it can go on so
that there is a connection. -/
def C120_claim : Prop :=
  ∀ (sock : Nat) (before : List (Caller × Outcome)),
    ∃ after, ((Broker.connect {} sock).run (before ++ after)).sock ≠ none

/-- The states with a connection: the event loop reads its socket, may be waiting to write to it and
runs the housekeeping task. -/
def Served (b : Broker) (s : Nat) : Prop :=
  b.sock = some s ∧ b.helper.readers = [s] ∧ (∀ w ∈ b.helper.writers, w = s) ∧ b.helper.tasks = [0] ∧
    b.helper.misc = some 0

/-- The states without one: nobody is left to call anything. -/
def Unserved (b : Broker) : Prop :=
  b.sock = none ∧ b.helper.readers = [] ∧ b.helper.writers = [] ∧ b.helper.tasks = []

theorem up_connect (sock : Nat) : Served (Broker.connect {} sock) sock := by
  simp [Broker.connect, Broker.callbacks, Helper.run, Helper.step, Served, insertNew]

theorem up_step (b : Broker) (s : Nat) (h : Served b s) (c : Caller) (o : Outcome) :
    (o ≠ .lost → Served (b.step c o) s) ∧ (o = .lost → b.calls c = true → Unserved (b.step c o)) := by
  obtain ⟨h1, h2, h3, h4, h5⟩ := h
  unfold Broker.step
  rw [h1]
  refine ⟨fun ho => ?_, fun ho hc => ?_⟩
  · split
    · cases o with
      | fine => exact ⟨h1, h2, h3, h4, h5⟩
      | wantWrite =>
        refine ⟨h1, h2, ?_, h4, h5⟩
        intro w hw
        simp only [Broker.callbacks, Helper.run, Helper.step, insertNew] at hw
        split at hw
        · exact h3 w hw
        · rcases List.mem_append.1 hw with hw | hw
          · exact h3 w hw
          · simpa using hw
      | wroteAll =>
        refine ⟨h1, h2, ?_, h4, h5⟩
        intro w hw
        simp only [Broker.callbacks, Helper.run, Helper.step] at hw
        exact h3 w (List.mem_filter.1 hw).1
      | lost => exact absurd rfl ho
    · exact ⟨h1, h2, h3, h4, h5⟩
  · subst ho
    rw [if_pos hc]
    simp only [Broker.callbacks, Helper.run, Helper.step, h5, Unserved, h2, h4]
    refine ⟨trivial, by simp, ?_, by simp⟩
    apply List.filter_eq_nil_iff.2
    intro w hw
    simp [h3 w hw]

theorem down_step (b : Broker) (h : Unserved b) (c : Caller) (o : Outcome) : b.step c o = b := by
  obtain ⟨h1, h2, h3, h4⟩ := h
  unfold Broker.step
  rw [h1]
  cases c <;> simp [Broker.calls, h2, h3, h4]

theorem down_run (b : Broker) (h : Unserved b) : ∀ l, b.run l = b := by
  intro l
  induction l with
  | nil => rfl
  | cons x l ih => obtain ⟨c, o⟩ := x; rw [Broker.run, down_step b h, ih]

theorem broker_run_append (l l' : List (Caller × Outcome)) : ∀ b : Broker, b.run (l ++ l') = (b.run l).run l' := by
  induction l with
  | nil => intro b; rfl
  | cons x l ih => intro b; obtain ⟨c, o⟩ := x; exact ih _

/-- C120: once any function of the client finds the connection lost, there is none whatever happens
later: no socket is read or written, no task runs, and nothing that is published changes that. -/
theorem C120_never (sock : Nat) (before after : List (Caller × Outcome))
    (h : ((Broker.connect {} sock).run before).sock = none) :
    (Broker.connect {} sock).run (before ++ after) = (Broker.connect {} sock).run before ∧
    Unserved ((Broker.connect {} sock).run before) := by
  have key : ∀ (l : List (Caller × Outcome)) (b : Broker), Served b sock → (b.run l).sock = none → Unserved (b.run l) := by
    intro l
    induction l with
    | nil => intro b hu hn; rw [Broker.run, hu.1] at hn; cases hn
    | cons x l ih =>
      intro b hu hn
      obtain ⟨c, o⟩ := x
      rw [Broker.run] at hn ⊢
      by_cases hd : Unserved (b.step c o)
      · rw [down_run _ hd]; exact hd
      · have hu' : Served (b.step c o) sock := by
          by_cases ho : o = .lost
          · by_cases hc : b.calls c = true
            · exact absurd ((up_step b sock hu c o).2 ho hc) hd
            · simpa [Broker.step, hc] using hu
          · exact (up_step b sock hu c o).1 ho
        exact ih _ hu' hn
  have hd := key before _ (up_connect sock) h
  exact ⟨by rw [broker_run_append, down_run _ hd], hd⟩

theorem C120_false : ¬ C120_claim := by
  intro h
  obtain ⟨after, ha⟩ := h 7 [(.reader 7, .lost)]
  have h0 : ((Broker.connect {} 7).run [(.reader 7, .lost)]).sock = none := by decide
  rw [(C120_never 7 _ after h0).1] at ha
  exact ha h0

/-- What does hold: as long as no function finds the connection lost, the socket is read and the
housekeeping is done. -/
theorem C120_served_partial (sock : Nat) (l : List (Caller × Outcome)) (h : ∀ x ∈ l, x.2 ≠ .lost) :
    Served ((Broker.connect {} sock).run l) sock := by
  have key : ∀ (l : List (Caller × Outcome)), (∀ x ∈ l, x.2 ≠ .lost) → ∀ b : Broker, Served b sock → Served (b.run l) sock := by
    intro l
    induction l with
    | nil => intro _ b hu; exact hu
    | cons x l ih =>
      intro hl b hu
      obtain ⟨c, o⟩ := x
      exact ih (fun y hy => hl y (by simp [hy])) _ ((up_step b sock hu c o).1 (hl (c, o) (by simp)))
  exact key l h _ (up_connect sock)

/-- As long as the connection is not lost, each of these may call the client: the event loop that
reads the socket, the housekeeping task, and the daemon itself when it publishes. Whoever of them
does may have to wait for the socket to be writable, and may find the connection lost. -/
theorem C120_callers (sock : Nat) (l : List (Caller × Outcome)) (h : ∀ x ∈ l, x.2 ≠ .lost) (c : Caller)
    (hc : c = .reader sock ∨ c = .misc 0 ∨ c = .publish) :
    sock ∈ (((Broker.connect {} sock).run l).step c .wantWrite).helper.writers ∧
    (((Broker.connect {} sock).run l).step c .lost).sock = none := by
  obtain ⟨h1, h2, h3, h4, h5⟩ := C120_served_partial sock l h
  generalize (Broker.connect {} sock).run l = b at *
  have hcall : b.calls c = true := by
    rcases hc with rfl | rfl | rfl <;> simp [Broker.calls, h2, h4]
  simp only [Broker.step, hcall, h1, if_true]
  constructor
  · simp only [Broker.callbacks, Helper.run, Helper.step, insertNew]
    split
    · assumption
    · simp
  · simp only [Broker.callbacks, Helper.run, Helper.step, h5]

/-- A housekeeping task that wakes up without a connection ends. -/
theorem C120_housekeeping (b : Broker) (t : Nat) (o : Outcome) (hs : b.sock = none) :
    t ∉ (b.step (.misc t) o).helper.tasks := by
  unfold Broker.step
  rw [hs]
  split
  · simp [Broker.callbacks, Helper.run, Helper.step]
  · rename_i h
    simpa [Broker.calls] using h

/-- The broker goes away while the daemon has something to write: later publications, and a task that
would wake up, are to no avail. -/
example :
    let b := (Broker.connect {} 7).run [(.publish, .wantWrite), (.misc 0, .fine), (.writer 7, .lost)]
    b.helper.readers = [] ∧ b.helper.tasks = [] ∧
    b.run [(.publish, .fine), (.misc 0, .fine), (.publish, .wantWrite)] = b ∧
    ((Broker.connect {} 7).run [(.publish, .wantWrite), (.misc 0, .fine)]).helper.writers = [7] := by decide

end CBus.Props
