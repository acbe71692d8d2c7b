import Verif.Model.Logging

/-! # C117: the daemon logs where and as much as it is told -/

namespace CBus.Props
open CBus CBus.Log

/-- The levels in the order in which cmqttd.py:319-320 lists them, the gravest last. -/
def gravity : List Level := [.debug, .info, .warning, .error, .critical]

/-- A record of the one level is at least as grave as the other. -/
def Grave (level least : Level) : Prop := gravity.idxOf least ≤ gravity.idxOf level

instance (a b : Level) : Decidable (Grave a b) := by unfold Grave; infer_instance

theorem grave_num (a b : Level) : b.num ≤ a.num ↔ Grave a b := by
  cases a <;> cases b <;> decide

/-- What docs/cmqttd.rst says of `--log-file`: the log goes there, and to standard output if it is not
given; and of `--verbosity`: records below it are left out. -/
def documented (log : Option Str) (verbosity level : Level) : List Dest :=
  if Grave level verbosity then [match log with | some p => .file p | none => .stdout] else []

/-- The claim: every record that any module of the package tells its logger is written as documented. -/
def C117_claim : Prop :=
  ∀ log verbosity rest level, (log ≠ some []) →
    (daemon log verbosity).emit ("cbus" :: rest) level = documented log verbosity level

/-- The log file is never written: the import of `cbus.common` has already configured logging, and a
second `basicConfig` does nothing. -/
theorem C117_false : ¬ C117_claim := by
  intro h
  have := h (some "x".toList) .info ["daemon", "cmqttd"] .error (by decide)
  revert this; decide +kernel

theorem lookup_cons_ne {n : Name} {l : Level} {m : Name} (h : m ≠ n) : List.lookup m [(n, l)] = none := by
  have : (m == n) = false := by simp [h]
  simp only [List.lookup, this]

theorem effective_cbus (s : State) (l : Level) (hs : s.levels = [(["cbus"], l)]) :
    ∀ rest : List String, ∀ n, rest.length < n → s.effective n ("cbus" :: rest) = l := by
  intro rest
  induction hn : rest.length generalizing rest with
  | zero =>
    intro n h
    obtain rfl : rest = [] := List.eq_nil_of_length_eq_zero hn
    match n, h with
    | n + 1, _ => simp [State.effective, hs]
  | succ k ih =>
    intro n h
    match n, h with
    | n + 1, h =>
      match rest, hn with
      | r :: rs, hn =>
        have h1 : List.lookup ("cbus" :: r :: rs) s.levels = none := by
          rw [hs]; exact lookup_cons_ne (by simp)
        have h2 : ("cbus" :: r :: rs).dropLast = "cbus" :: (r :: rs).dropLast := rfl
        simp only [State.effective, h1, h2]
        exact ih (r :: rs).dropLast (by simpa using hn) n (by omega)

theorem effective_other (s : State) (l : Level) (hs : s.levels = [(["cbus"], l)]) :
    ∀ n (name : Name), name.head? ≠ some "cbus" → s.effective n name = s.root := by
  intro n
  induction n with
  | zero => intro name _; rfl
  | succ n ih =>
    intro name h
    have h1 : List.lookup name s.levels = none := by
      rw [hs]; exact lookup_cons_ne (by intro e; rw [e] at h; simp at h)
    simp only [State.effective, h1]
    apply ih
    match name, h with
    | [], _ => simp
    | [a], _ => simp
    | a :: b :: l, h => simpa using h

theorem daemon_eq (log : Option Str) (v : Level) :
    daemon log v = ⟨[.stderr], .warning, [(["cbus"], v)]⟩ := by
  simp [daemon, imported, State.basicConfig, State.setLevel]

/-- What does hold: `--verbosity` says which records of the package's own loggers are written, each
once; the others' (cmqttd.py:139, 146 and 454 tell the root logger) are written from `WARNING` on,
whatever the option says; and all of them to standard error, whatever `--log-file` says. -/
theorem C117_partial (log : Option Str) (verbosity level : Level) :
    (∀ rest, (daemon log verbosity).emit ("cbus" :: rest) level =
      if Grave level verbosity then [.stderr] else []) ∧
    (∀ name : Name, name.head? ≠ some "cbus" → (daemon log verbosity).emit name level =
      if level = .debug ∨ level = .info then [] else [.stderr]) := by
  rw [daemon_eq]
  refine ⟨?_, ?_⟩
  · intro rest
    simp only [State.emit, effective_cbus ⟨[.stderr], .warning, [(["cbus"], verbosity)]⟩ verbosity rfl rest
      ("cbus" :: rest).length (by simp), grave_num]
  · intro name h
    simp only [State.emit, effective_other ⟨[.stderr], .warning, [(["cbus"], verbosity)]⟩ verbosity rfl
      name.length name h]
    cases level <;> simp [Level.num]

/-- Setting the level of one logger leaves all the others as they are. -/
theorem C117_setLevel (s : State) (name : Name) (level : Level) :
    (∀ n, n ≠ name → n ≠ [] → (s.setLevel name level).levels.lookup n = s.levels.lookup n) ∧
    (name ≠ [] → (s.setLevel name level).levels.lookup name = some level ∧ (s.setLevel name level).root = s.root) ∧
    (name = [] → (s.setLevel name level).root = level) ∧ (s.setLevel name level).handlers = s.handlers := by
  have key : ∀ (l : List (Name × Level)) n, n ≠ name → (l.filter (·.1 ≠ name)).lookup n = l.lookup n := by
    intro l n hn
    induction l with
    | nil => rfl
    | cons x l ih =>
      obtain ⟨m, v⟩ := x
      by_cases hm : m = name
      · have h1 : (n == m) = false := by simp [hm, hn]
        rw [List.filter_cons_of_neg (by simp [hm]), ih, List.lookup_cons, h1]
      · rw [List.filter_cons_of_pos (by simp [hm]), List.lookup_cons, List.lookup_cons, ih]
  cases name with
  | nil => exact ⟨fun n _ _ => rfl, fun h => absurd rfl h, fun _ => rfl, rfl⟩
  | cons a l =>
    refine ⟨fun n hn _ => ?_, fun _ => ⟨?_, rfl⟩, fun h => absurd h (by simp), rfl⟩
    · have h1 : (n == a :: l) = false := by simpa using hn
      simp only [State.setLevel]
      rw [List.lookup_cons, h1]
      exact key _ n hn
    · simp [State.setLevel]

/-- So with `--verbosity ERROR` a warning of the package is not written, the warning that transport
security is off is, and with `--verbosity DEBUG --log-file x` nothing is written to `x`. -/
example : (daemon none .error).emit ["cbus", "protocol", "pciprotocol"] .warning = [] ∧
    (daemon none .error).emit [] .warning = [.stderr] ∧
    (daemon (some "x".toList) .debug).emit ["cbus", "daemon", "cmqttd"] .debug = [.stderr] := by
  decide +kernel

/-- Run with `python3 -m cbus.daemon.cmqttd`, as docs/cmqttd.rst suggests, the daemon's own
module is called `__main__`, and what it logs at level `INFO` is not written even with
`--verbosity DEBUG`. -/
example : (daemon none .debug).emit ["__main__"] .info = [] := by decide +kernel

/-- The other two programs: the PCI tool writes everything that the package logs; the simulated PCI
everything that its own protocol module logs, and only warnings of the rest. -/
theorem C117_tools (level : Level) :
    (∀ rest, pciMain.emit ("cbus" :: rest) level = [.stderr]) ∧
    serverMain.emit ["cbus", "protocol", "pciserverprotocol"] level = [.stderr] ∧
    serverMain.emit ["cbus", "protocol", "cbus_protocol"] level =
      if level = .debug ∨ level = .info then [] else [.stderr] := by
  refine ⟨?_, ?_, ?_⟩
  · intro rest
    have e : pciMain = ⟨[.stderr], .warning, [(["cbus"], .debug)]⟩ := by decide +kernel
    rw [e]
    simp only [State.emit, effective_cbus ⟨[.stderr], .warning, [(["cbus"], .debug)]⟩ .debug rfl rest
      ("cbus" :: rest).length (by simp)]
    cases level <;> simp [Level.num]
  · cases level <;> decide +kernel
  · cases level <;> decide +kernel

end CBus.Props
