import Verif.Props.Life
import Verif.Spec.Outlet

/-! # C121: all that the daemon ever writes to the PCI -/

namespace CBus.Props
open CBus CBus.Spec

theorem codeAt_isCode (k : Nat) : IsCode (codeAt k) := by
  unfold codeAt IsCode
  have h : k % 20 < 20 := Nat.mod_lt _ (by decide)
  split
  · decide
  · rw [UInt8.toNat_ofNat']
    omega

/-- What is written is the time. -/
def OnlyTime (now : Nat → PyDateTime) (o : List (Eff MqttEff)) : Prop :=
  ∀ line, Eff.write line ∈ o → ∃ n c, IsCode c ∧ ClockLine (now n) c line

theorem onlyTime_append {now : Nat → PyDateTime} {a b : List (Eff MqttEff)} (ha : OnlyTime now a) (hb : OnlyTime now b) :
    OnlyTime now (a ++ b) := by
  intro line h
  rcases List.mem_append.1 h with h | h
  · exact ha line h
  · exact hb line h

theorem not_write_ext {line : Bytes} {l : List MqttEff} : Eff.write line ∉ l.map Eff.ext := by
  simp

theorem handles_time {m : Manner MqttEff} {es : List Event} {k k' : Count} {o : List (Eff MqttEff)}
    (h : Handles m es k o k') : OnlyTime m.now o := by
  induction h with
  | nil => intro line h; cases h
  | clock src es k k' l o _ hl _ ih =>
    intro line h
    simp only [List.mem_cons] at h
    rcases h with h | h | h
    · cases h
    · cases h; exact ⟨_, _, codeAt_isCode _, hl⟩
    · exact ih line h
  | noClock src es k k' o _ _ ih =>
    intro line h
    simp only [List.mem_cons] at h
    rcases h with h | h
    · cases h
    · exact ih line h
  | other e es k k' o _ _ ih =>
    intro line h
    simp only [List.cons_append, List.mem_cons, List.mem_append] at h
    rcases h with h | h | h
    · cases h
    · exact absurd h not_write_ext
    · exact ih line h

theorem hears_time {m : Manner MqttEff} {d d' : Bytes} {k k' : Count} {o : List (Eff MqttEff)} {r : Py Unit}
    (h : Hears m d k o d' k' r) : OnlyTime m.now o := by
  induction h with
  | waits => intro line h; cases h
  | fault => intro line h; cases h
  | skips _ _ _ _ _ _ _ _ _ _ ih => exact ih
  | message _ _ _ _ _ _ _ _ _ _ _ ho _ ih => exact onlyTime_append (handles_time ho) ih

theorem converses_time {m : Manner MqttEff} {b b' : Bytes} {k k' : Count} {ds : List Bytes} {o : List (Eff MqttEff)}
    {r : Py Unit} (h : Converses m b k ds o b' k' r) : OnlyTime m.now o := by
  induction h with
  | silence => intro line h; cases h
  | huge => intro line h; cases h
  | overflow => intro line h; cases h
  | ends _ _ _ _ _ _ _ _ _ h => exact hears_time h
  | goesOn _ _ _ _ _ _ _ _ _ _ _ _ h _ ih => exact onlyTime_append (hears_time h) ih

theorem setBytes_command {m : SetMessage} {ga : Int} {b : Bytes} (h : SetBytes m ga b) : LightCommand ga b := by
  cases h with
  | off => exact .off
  | on => exact .on
  | ramp k q _ _ _ hk =>
    refine .ramp k _ ?_
    have := (List.getElem?_eq_some_iff.1 hk).1
    exact this

theorem does_mayWrite {u : UniTable} {read : Bytes → JVal → Prop} {now : Nat → PyDateTime} {ts : Int} {x : DaemonStep}
    {d d' : DaemonState} {o : List (Eff MqttEff)} {r : Py Unit} (h : Does u read now ts x d o d' r) (line : Bytes)
    (hl : Eff.write line ∈ o) : MayWrite u now x line := by
  cases h with
  | made =>
    simp only [setUp, List.mem_append, List.mem_cons, List.not_mem_nil, or_false] at hl
    rcases hl with (hl | hl | hl | hl | hl | hl) | hl
    · cases hl; exact .reset
    · cases hl; exact .reset
    · cases hl; exact .reset
    · cases hl; exact .setting "A3210038" _ (by simp [settings]) (codeAt_isCode _)
    · cases hl; exact .setting "A342000E" _ (by simp [settings]) (codeAt_isCode _)
    · cases hl; exact .setting "A3300059" _ (by simp [settings]) (codeAt_isCode _)
    · split at hl <;> simp at hl
  | receive =>
    rename_i h
    obtain ⟨n, c, h1, h2⟩ := converses_time h line hl
    exact .asked _ n c line h1 h2
  | tick =>
    rename_i hl'
    simp only [List.mem_singleton] at hl
    cases hl
    exact .tick _ _ _ (codeAt_isCode _) hl'
  | broker => exact absurd hl not_write_ext
  | message =>
    rcases List.mem_cons.1 hl with hl | hl
    · cases hl
      exact .light _ _ _ _ _ _ ‹_› (codeAt_isCode _) (setBytes_command ‹_›) ‹_›
    · exact absurd hl not_write_ext
  | _ => cases hl

theorem lives_mayWrite {u : UniTable} {read : Bytes → JVal → Prop} {now : Nat → PyDateTime} {ts : Int}
    {xs : List DaemonStep} {d d' : DaemonState} {os : List (List (Eff MqttEff) × Py Unit)}
    (h : Lives u read now ts xs d os d') :
    ∀ y ∈ xs.zip os, ∀ line, Eff.write line ∈ y.2.1 → MayWrite u now y.1 line := by
  induction h with
  | nil => intro y h; cases h
  | cons x xs d d1 d2 o r os h _ ih =>
    intro y hy line hl
    rw [List.zip_cons_cons] at hy
    rcases List.mem_cons.1 hy with rfl | hy
    · exact does_mayWrite h line hl
    · exact ih y hy line hl

theorem daemonRun_length (u : UniTable) (loads : Bytes → Option JVal) (now : Nat → PyDateTime) (xs : List DaemonStep)
    (c : Conn Client) : (daemonRun u loads now xs c).2.length = xs.length := by
  induction xs generalizing c with
  | nil => rfl
  | cons x xs ih => simp only [daemonRun, List.length_cons, ih]

/-- C121: whatever happens, in whatever order, what the daemon writes in each step is what may
be written then. -/
theorem C121_writes (u : UniTable) (loads : Bytes → Option JVal) (now : Nat → PyDateTime) (hnow : ∀ n, DateTimeOk (now n))
    (c : Conn Client) (hk : c.st.nextConf < 20) (xs : List DaemonStep) (hx : OnlyConnected c.st.connected xs) :
    (daemonRun u loads now xs c).2.length = xs.length ∧
    ∀ y ∈ xs.zip (daemonRun u loads now xs c).2, ∀ line, Eff.write line ∈ y.2.1 → MayWrite u now y.1 line := by
  obtain ⟨d, h, _⟩ := (C104_daemon u loads now hnow c hk xs hx (daemonRun u loads now xs c).1
    (daemonRun u loads now xs c).2).1 rfl
  exact ⟨daemonRun_length u loads now xs c, lives_mayWrite h⟩

theorem digits_no_cr {body digits : Bytes} (h : Spelled true body digits) : (0x0d : UInt8) ∉ digits := by
  obtain ⟨x, h, _⟩ := h
  intro hm
  exact absurd (hexPairs_digits h _ hm) (by unfold HexDigit; decide)

theorem framed_oneLine {body digits : Bytes} {c : UInt8} (hc : IsCode c) (h : Spelled true body digits) :
    OneLine (0x5c :: digits ++ [c, 0x0d]) := by
  refine ⟨0x5c :: digits ++ [c], by simp, ?_⟩
  intro hm
  simp only [List.cons_append, List.mem_cons, List.mem_append, List.not_mem_nil, or_false] at hm
  rcases hm with hm | hm | hm
  · exact absurd hm (by decide)
  · exact digits_no_cr h hm
  · rw [← hm] at hc
    exact absurd hc (by unfold IsCode; decide)

/-- A message, a request for the time and a command of someone else for another light. -/
example : OnlyConnected true [.message "homeassistant/light/cbus_7/set".toList (Json.utf8 "{\"state\": \"off\"}".toList),
      .receive (ascii "0505DF00110303\r\n05053800790144\r\n")] ∧
    (daemonRun .ascii (CBus.Json.loads exampleEnv) (fun _ => someTime)
      [.message "homeassistant/light/cbus_7/set".toList (Json.utf8 "{\"state\": \"off\"}".toList),
       .receive (ascii "0505DF00110303\r\n05053800790144\r\n")]
      ⟨[], { timesync := 0, future := .pending, connected := true }⟩).2.map (fun o => writesOf o.1) =
    [[ascii "\\0538000107BBh\r"],
     [0x5c :: b16encode (addChecksum (ClientCall.clockNow.frame someTime PyDate.weekday)) ++ [0x69, 0x0d]]] := by
  refine ⟨.message _ _ _ _ (.receive _ _ (.nil _)), ?_⟩
  decide +kernel

/-- C121: each of them is one line, so that nothing in it can be taken for a second command. -/
theorem C121_line (u : UniTable) (now : Nat → PyDateTime) (x : DaemonStep) (line : Bytes) (h : MayWrite u now x line) :
    OneLine line := by
  cases h with
  | reset => exact ⟨[0x7e], by decide, by decide⟩
  | setting s c hs hc =>
    refine ⟨ascii s ++ [c], by simp, ?_⟩
    intro hm
    rcases List.mem_append.1 hm with hm | hm
    · simp only [settings, List.mem_cons, List.not_mem_nil, or_false] at hs
      rcases hs with rfl | rfl | rfl <;> exact absurd hm (by decide +kernel)
    · rw [← List.mem_singleton.1 hm] at hc
      exact absurd hc (by unfold IsCode; decide)
  | tick n c _ hc h =>
    obtain ⟨w, digits, _, hs, rfl⟩ := h
    exact framed_oneLine hc hs
  | asked d n c _ hc h =>
    obtain ⟨w, digits, _, hs, rfl⟩ := h
    exact framed_oneLine hc hs
  | light topic payload ga c body digits ht hc hb hs => exact framed_oneLine hc hs

theorem spelled_body {body body' digits : Bytes} (h : Spelled true body digits) (h' : Spelled true body' digits) :
    body = body' := by
  obtain ⟨x, h, _⟩ := h
  obtain ⟨x', h', _⟩ := h'
  have e := (b16decode_iff _ _).2 h
  rw [(b16decode_iff _ _).2 h'] at e
  injection e with e
  exact (List.append_inj' e rfl).1.symm

theorem framed_digits {digits digits' : Bytes} {c c' : UInt8}
    (h : 0x5c :: digits ++ [c, 0x0d] = 0x5c :: digits' ++ [c', 0x0d]) : digits = digits' := by
  simp only [List.cons_append, List.cons.injEq, true_and] at h
  exact (List.append_inj' h rfl).1

/-- C121: only a message from the broker moves a light, and only the one that the message is for. -/
theorem C121_lights (u : UniTable) (now : Nat → PyDateTime) (x : DaemonStep) (body digits : Bytes) (c : UInt8)
    (hs : Spelled true (0x05 :: 0x38 :: body) digits) (h : MayWrite u now x (0x5c :: digits ++ [c, 0x0d])) :
    ∃ topic payload ga, x = .message topic payload ∧ ForLight u topic ga ∧ LightCommand ga (0x05 :: 0x38 :: body) := by
  generalize hl : 0x5c :: digits ++ [c, 0x0d] = line at h
  cases h with
  | reset => exact absurd (congrArg List.head? hl) (by simp; decide)
  | setting s c hm hc =>
    simp only [settings, List.mem_cons, List.not_mem_nil, or_false] at hm
    rcases hm with rfl | rfl | rfl <;> exact absurd (congrArg List.head? hl) (by simp [ascii])
  | tick n c' _ hc h =>
    obtain ⟨w, digits', _, hs', rfl⟩ := h
    rw [framed_digits hl] at hs
    exact absurd (spelled_body hs hs') (by simp)
  | asked d n c' _ hc h =>
    obtain ⟨w, digits', _, hs', rfl⟩ := h
    rw [framed_digits hl] at hs
    exact absurd (spelled_body hs hs') (by simp)
  | light topic payload ga c' body' digits' ht hc hb hs' =>
    rw [framed_digits hl] at hs
    rw [spelled_body hs hs']
    exact ⟨topic, payload, ga, rfl, ht, hb⟩

end CBus.Props
