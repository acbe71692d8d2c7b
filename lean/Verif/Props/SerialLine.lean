import Verif.Model.Serial
import Verif.Props.Burst

/-! # C150: a serial line with a line that cannot be read -/

namespace CBus.Props
open CBus CBus.Spec

variable {π : Type}

/-- The characters of reports. -/
def charsOf (items : List (PM × Bytes)) : Bytes := (items.map (·.2)).flatten

theorem charsOf_append (a b : List (PM × Bytes)) : charsOf (a ++ b) = charsOf a ++ charsOf b := by simp [charsOf]

/-- C150 in full: a line that cannot be read is received through a serial port, and behind it reports
of the network. But for those in the first 512 characters the messages for all of them are published,
whatever the pieces (of no more than 256 characters) in which they arrive. -/
def C150_claim : Prop :=
  ∀ (now : Nat → PyDateTime) (_ : ∀ n, DateTimeOk (now n)) (s : Client) (_ : Up s) (_ : s.mqttApi = true)
    (l : Bytes) (_ : l ≠ [] ∧ Unreadable true true l) (items : List (PM × Bytes)) (_ : ∀ i ∈ items, EventLine i.1 i.2)
    (chunks : List Bytes) (_ : chunks.flatten = charsOf items) (_ : ∀ d ∈ chunks, d.length ≤ 256),
    ∃ k, (charsOf (items.take k)).length ≤ 512 ∧
      messagesOf (Client.serialSession (Mqtt.cbusHook now) ((l ++ [0x0d, 0x0a]) :: chunks) ⟨[], s⟩).2 =
        (items.drop k).flatMap fun i => salMessages i.1.src (i.1.sals.map received)

/-- Pieces that consist of whole lines are heard, from an empty buffer on. -/
theorem serial_heard (now : Nat → PyDateTime) (hnow : ∀ n, DateTimeOk (now n)) : ∀ (gs : List (List (PM × Bytes))) (s : Client),
    Up s → s.mqttApi = true → (∀ g ∈ gs, ∀ i ∈ g, EventLine i.1 i.2) → (∀ g ∈ gs, (charsOf g).length ≤ 256) →
    messagesOf (Client.serialSession (Mqtt.cbusHook now) (gs.map charsOf) ⟨[], s⟩).2 =
      gs.flatten.flatMap fun i => salMessages i.1.src (i.1.sals.map received) := by
  intro gs
  induction gs with
  | nil => intros; rfl
  | cons g gs ih =>
    intro s hu ha hi hl
    have hl' := hl g (by simp)
    have h := C64_stream now hnow s hu ha g (hi g (by simp)) [charsOf g] (by simp [charsOf])
      ⟨by simp only [List.length_nil, Nat.zero_add]; exact hl', fun _ _ _ => trivial⟩
    generalize hz : feed maxBufferSize (Client.handle (Mqtt.cbusHook now)) [charsOf g] ⟨[], s⟩ = z at h
    have hk := (C102_daemon now hnow s hu [] [charsOf g] z.1 z.2.1 z.2.2).1 hz
    simp only [feed, Proc.andThen] at hz
    have hdef : CBus.dataReceived maxBufferSize (Client.handle (Mqtt.cbusHook now)) (charsOf g) ⟨[], s⟩ =
      Client.dataReceived (Mqtt.cbusHook now) (charsOf g) ⟨[], s⟩ := rfl
    rw [hdef] at hz
    simp only [List.map_cons, Client.serialSession, List.flatten_cons, List.flatMap_append]
    obtain ⟨c, o, r⟩ := z
    obtain ⟨h1, h2, h3⟩ := h
    obtain ⟨k, -, h4⟩ := hk
    simp only at h1 h2 h3 h4
    subst h1
    generalize Client.dataReceived (Mqtt.cbusHook now) (charsOf g) ⟨[], s⟩ = y at hz
    obtain ⟨c', o', r'⟩ := y
    cases r' with
    | error e => simp at hz
    | ok u =>
      simp only [List.append_nil, Prod.mk.injEq, and_true] at hz
      obtain ⟨rfl, rfl⟩ := hz
      obtain ⟨cb, cs⟩ := c'
      simp only at h2 h4
      subst h2
      simp only [messagesOf_append, h3]
      congr 1
      refine ih cs ?_ ?_ (fun g hg => hi g (List.mem_cons_of_mem _ hg)) (fun g hg => hl g (List.mem_cons_of_mem _ hg))
      · rw [h4]
        exact ⟨hu.1, Nat.mod_lt _ (by decide)⟩
      · rw [h4]
        exact ha

/-- While it is blocked nothing is heard, and it is blocked until the buffer overflows. -/
theorem serial_blocked (now : Nat → PyDateTime) (hnow : ∀ n, DateTimeOk (now n)) (s : Client) (hu : Up s) (ha : s.mqttApi = true) :
    ∀ (gs : List (List (PM × Bytes))) (b : Bytes) (e : PyErr), decodePacket b true true true = .error e → b.length ≤ 256 →
    (∀ g ∈ gs, ∀ i ∈ g, EventLine i.1 i.2) → (∀ g ∈ gs, (charsOf g).length ≤ 256) →
    ∃ k, (charsOf (gs.flatten.take k)).length + b.length ≤ 512 ∧
      messagesOf (Client.serialSession (Mqtt.cbusHook now) (gs.map charsOf) ⟨b, s⟩).2 =
        (gs.flatten.drop k).flatMap fun i => salMessages i.1.src (i.1.sals.map received) := by
  intro gs
  induction gs with
  | nil => exact fun b e h hb _ _ => ⟨0, by simp [charsOf]; omega, rfl⟩
  | cons g gs ih =>
    intro b e h hb hi hl
    have hl' := hl g (by simp)
    have hbl := C42_blocked (Mqtt.cbusHook now) ⟨b, s⟩ e h (charsOf g)
    simp only [show maxBufferSize = 256 from rfl, if_neg (show ¬ 256 < (charsOf g).length by omega)] at hbl
    by_cases ho : 256 < b.length + (charsOf g).length
    · rw [if_pos ho] at hbl
      refine ⟨g.length, ?_, ?_⟩
      · simp only [List.flatten_cons, List.take_left']
        omega
      · simp only [List.map_cons, Client.serialSession, hbl, List.nil_append, List.flatten_cons, List.drop_left']
        exact serial_heard now hnow gs s hu ha (fun g hg => hi g (List.mem_cons_of_mem _ hg))
          (fun g hg => hl g (List.mem_cons_of_mem _ hg))
    · rw [if_neg ho] at hbl
      obtain ⟨k, h1, h2⟩ := ih (b ++ charsOf g) e
        (by rw [C35_prefix_stable _ _ _ _ _ (by rw [h]; simp), h]) (by simp; omega)
        (fun g hg => hi g (List.mem_cons_of_mem _ hg)) (fun g hg => hl g (List.mem_cons_of_mem _ hg))
      refine ⟨g.length + k, ?_, ?_⟩
      · simp only [List.flatten_cons, List.take_append, List.take_of_length_le (Nat.le_add_right _ _), Nat.add_sub_cancel_left,
          charsOf_append, List.length_append] at h1 ⊢
        omega
      · simp only [List.map_cons, Client.serialSession, hbl, List.nil_append, List.flatten_cons, List.drop_append,
          List.drop_of_length_le (Nat.le_add_right _ _), Nat.add_sub_cancel_left, h2]

/-- C150 if the pieces consist of whole lines. The bound counts the line that cannot be read, too.

What is missing: other pieces, see `C150_forever`. -/
theorem C150_partial (now : Nat → PyDateTime) (hnow : ∀ n, DateTimeOk (now n)) (s : Client) (hu : Up s) (ha : s.mqttApi = true)
    (l : Bytes) (hl : l ≠ [] ∧ Unreadable true true l) (gs : List (List (PM × Bytes)))
    (hi : ∀ g ∈ gs, ∀ i ∈ g, EventLine i.1 i.2) (hd : ∀ g ∈ gs, (charsOf g).length ≤ 256) :
    ∃ k, (charsOf (gs.flatten.take k)).length ≤ 512 ∧ ((l.length + 2) + (charsOf (gs.flatten.take k)).length ≤ 512 ∨ k = 0) ∧
      messagesOf (Client.serialSession (Mqtt.cbusHook now) ((l ++ [0x0d, 0x0a]) :: gs.map charsOf) ⟨[], s⟩).2 =
        (gs.flatten.drop k).flatMap fun i => salMessages i.1.src (i.1.sals.map received) := by
  obtain ⟨e, he⟩ := (C36_pci_partial (l ++ [0x0d, 0x0a]) true true).2 ⟨l, [], by simp, hl.1, hl.2⟩
  by_cases hb : 256 < (l ++ [0x0d, 0x0a]).length
  · have hr : Client.dataReceived (Mqtt.cbusHook now) (l ++ [0x0d, 0x0a]) ⟨[], s⟩ = (⟨[], s⟩, [], .error .valueError) :=
      C110_serial now s [] _ hb
    refine ⟨0, by simp [charsOf], .inr rfl, ?_⟩
    simp only [Client.serialSession, hr, List.nil_append, List.drop_zero]
    exact serial_heard now hnow gs s hu ha hi hd
  · have hr : Client.dataReceived (Mqtt.cbusHook now) (l ++ [0x0d, 0x0a]) ⟨[], s⟩ = (⟨l ++ [0x0d, 0x0a], s⟩, [], .error e) := by
      unfold Client.dataReceived CBus.dataReceived
      rw [if_neg (by exact hb), if_neg (by simp only [List.length_nil, Nat.zero_add]; exact hb)]
      refine processBuffer_error (by simp) ?_
      simp [Client.handle, handleData, he]
    obtain ⟨k, h1, h2⟩ := serial_blocked now hnow s hu ha gs (l ++ [0x0d, 0x0a]) e he (by omega) hi hd
    refine ⟨k, by omega, .inl (by simp only [List.length_append, List.length_cons, List.length_nil] at h1; omega), ?_⟩
    simp only [Client.serialSession, hr, List.nil_append, h2]

/-! ## Pieces that end within lines -/

/-- The line for a lamp that is switched on. -/
def lampLine : Bytes := ascii "05053800790144\r\n"

theorem unreadable_050 : ascii "050" ≠ [] ∧ Unreadable true true (ascii "050") := by
  refine ⟨by decide +kernel, fun c hc => ?_, .inl (by decide +kernel)⟩
  have : c = 0x30 ∨ c = 0x35 := by
    revert hc; revert c; apply forall_byte; decide +kernel
  rcases this with rfl | rfl <;> (unfold HexDigit; decide)

/-- Seventeen lines, from the second character of one to the first of another. -/
def badPieces : List Bytes := [lampLine.drop 1, (List.replicate 15 lampLine).flatten, lampLine ++ lampLine.take 1]

theorem bad_first (hook : Event → Proc Client (Eff π) Unit) (s : Client) :
    Client.dataReceived hook (lampLine.drop 1) ⟨[], s⟩ = (⟨lampLine.drop 1, s⟩, [], .error .binasciiError) := by
  unfold Client.dataReceived CBus.dataReceived
  rw [if_neg (by decide +kernel), if_neg (by simp only [List.length_nil]; decide +kernel)]
  refine processBuffer_error (by simp; decide +kernel) ?_
  have : decodePacket (lampLine.drop 1) true true true = .error .binasciiError := by decide +kernel
  simp only [List.nil_append, Client.handle, handleData, this]
  rfl

theorem bad_round (hook : Event → Proc Client (Eff π) Unit) (s : Client) (ds : List Bytes) :
    Client.serialSession hook (badPieces ++ ds) ⟨[], s⟩ = Client.serialSession hook ds ⟨[], s⟩ := by
  have h1 := bad_first hook s
  have hd : decodePacket (lampLine.drop 1) true true true = .error .binasciiError := by decide +kernel
  have h2 := C42_blocked hook ⟨lampLine.drop 1, s⟩ _ hd (List.replicate 15 lampLine).flatten
  rw [if_neg (by decide +kernel), if_neg (by simp only; decide +kernel)] at h2
  have h3 := C42_blocked hook ⟨lampLine.drop 1 ++ (List.replicate 15 lampLine).flatten, s⟩ .binasciiError
    (by rw [C35_prefix_stable _ _ _ _ _ (by rw [hd]; simp), hd]) (lampLine ++ lampLine.take 1)
  rw [if_neg (by decide +kernel), if_pos (by simp only; decide +kernel)] at h3
  simp only [badPieces, List.cons_append, List.nil_append, Client.serialSession, h1, h2, h3]

/-- The daemon may stay deaf for ever: in such pieces any number of reports is lost to the last one, without
another line that cannot be read. -/
theorem C150_forever (hook : Event → Proc Client (Eff π) Unit) (s : Client) (n : Nat) :
    let chunks := [ascii "050\r\n", (List.replicate 15 lampLine).flatten, lampLine ++ lampLine.take 1] ++
      (List.replicate n badPieces).flatten ++ [lampLine.drop 1]
    chunks.flatten = ascii "050\r\n" ++ (List.replicate (17 * (n + 1)) lampLine).flatten ∧
    (Client.serialSession hook chunks ⟨[], s⟩).2 = [] := by
  refine ⟨?_, ?_⟩
  · have hb : ∀ n, lampLine.take 1 ++ ((List.replicate n badPieces).flatten.flatten ++ lampLine.drop 1) =
        (List.replicate (17 * n + 1) lampLine).flatten := by
      intro n
      induction n with
      | zero => decide +kernel
      | succ n ih =>
        have h17 : lampLine.take 1 ++ badPieces.flatten = (List.replicate 17 lampLine).flatten ++ lampLine.take 1 := by decide +kernel
        rw [List.replicate_succ, List.flatten_cons, List.flatten_append, List.append_assoc, ← List.append_assoc, h17,
          List.append_assoc, ih, ← List.flatten_append, List.replicate_append_replicate]
        congr 2; omega
    have h := hb n
    have h16 : (List.replicate 15 lampLine).flatten ++ lampLine = (List.replicate 16 lampLine).flatten := by decide +kernel
    simp only [List.flatten_append, List.flatten_cons, List.flatten_nil, List.append_nil, List.append_assoc] at h ⊢
    rw [h, ← List.append_assoc (List.replicate 15 lampLine).flatten, h16, ← List.flatten_append, List.replicate_append_replicate]
    congr 3; omega
  · have hd : decodePacket (ascii "050\r\n") true true true = .error .binasciiError := by decide +kernel
    have h1 : Client.dataReceived hook (ascii "050\r\n") ⟨[], s⟩ = (⟨ascii "050\r\n", s⟩, [], .error .binasciiError) := by
      unfold Client.dataReceived CBus.dataReceived
      rw [if_neg (by decide +kernel), if_neg (by simp only [List.length_nil]; decide +kernel)]
      refine processBuffer_error (by simp; decide +kernel) ?_
      simp only [List.nil_append, Client.handle, handleData, hd]
      rfl
    have h2 := C42_blocked hook ⟨ascii "050\r\n", s⟩ _ hd (List.replicate 15 lampLine).flatten
    rw [if_neg (by decide +kernel), if_neg (by simp only; decide +kernel)] at h2
    have h3 := C42_blocked hook ⟨ascii "050\r\n" ++ (List.replicate 15 lampLine).flatten, s⟩ .binasciiError
      (by rw [C35_prefix_stable _ _ _ _ _ (by rw [hd]; simp), hd]) (lampLine ++ lampLine.take 1)
    rw [if_neg (by decide +kernel), if_pos (by simp only; decide +kernel)] at h3
    have h4 : Client.dataReceived hook (lampLine.drop 1) ⟨[], s⟩ = (⟨lampLine.drop 1, s⟩, [], .error .binasciiError) :=
      bad_first hook s
    simp only [List.cons_append, List.nil_append, Client.serialSession, h1, h2, h3]
    induction n with
    | zero => simp only [List.replicate_zero, List.flatten_nil, List.nil_append, Client.serialSession, h4]
    | succ n ih => rw [List.replicate_succ, List.flatten_cons, List.append_assoc, bad_round, ih]

theorem C150_false : ¬ C150_claim := by
  intro h
  have hf := C150_forever (Mqtt.cbusHook fun _ => someTime) { connected := true, mqttApi := true } 1
  obtain ⟨hf1, hf2⟩ := hf
  obtain ⟨k, h1, h2⟩ := h (fun _ => someTime) (fun _ => someTime_ok) { connected := true, mqttApi := true } ⟨rfl, by decide⟩ rfl
    (ascii "050") unreadable_050 (List.replicate 34 (lampOn, lampLine))
    (fun i hi => by rw [List.eq_of_mem_replicate hi]; exact lampOn_line)
    ([(List.replicate 15 lampLine).flatten, lampLine ++ lampLine.take 1] ++ badPieces ++ [lampLine.drop 1])
    (by decide +kernel) (by decide +kernel)
  have he : (ascii "050" ++ [0x0d, 0x0a]) ::
      ([(List.replicate 15 lampLine).flatten, lampLine ++ lampLine.take 1] ++ badPieces ++ [lampLine.drop 1]) =
      [ascii "050\r\n", (List.replicate 15 lampLine).flatten, lampLine ++ lampLine.take 1] ++
      (List.replicate 1 badPieces).flatten ++ [lampLine.drop 1] := by decide +kernel
  rw [he, hf2] at h2
  by_cases hk : 34 ≤ k
  · rw [List.take_of_length_le (by simpa using hk)] at h1
    exact absurd h1 (by decide +kernel)
  · obtain ⟨m, hm⟩ : ∃ m, 34 - k = m + 1 := ⟨33 - k, by omega⟩
    rw [List.drop_replicate, hm, List.replicate_succ, List.flatMap_cons] at h2
    have h3 := congrArg List.length h2
    have h4 : (salMessages lampOn.src (lampOn.sals.map received)).length = 2 := by decide +kernel
    simp only [List.length_append, h4] at h3
    simp [messagesOf] at h3
    omega

/-- Whatever is received through a serial port, the connection is not given up: the daemon can be commanded
all the while. -/
theorem C150_stays (now : Nat → PyDateTime) : ∀ (ds : List Bytes) (c : Conn Client),
    let r := (Client.serialSession (Mqtt.cbusHook now) ds c).1
    r.st.connected = c.st.connected ∧ r.st.future = c.st.future := by
  intro ds
  induction ds with
  | nil => exact fun c => ⟨rfl, rfl⟩
  | cons d ds ih =>
    intro c
    have hk := daemon_linkRel.dataReceived (daemon_linkRel.cbusHook now) d c
    have h := ih (Client.dataReceived (Mqtt.cbusHook now) d c).1
    exact ⟨h.1.trans hk.1, h.2.trans hk.2.1⟩

/-- A line that cannot be read, sixteen reports that are lost with it, and one that is heard. -/
example : (Client.serialSession (Mqtt.cbusHook fun _ => someTime)
      [ascii "050\r\n", (List.replicate 15 lampLine).flatten, lampLine, lampLine] ⟨[], { connected := true, mqttApi := true }⟩).2.length = 3 ∧
    (Client.serialSession (Mqtt.cbusHook fun _ => someTime)
      [ascii "050\r\n", (List.replicate 15 lampLine).flatten, lampLine] ⟨[], { connected := true, mqttApi := true }⟩).2 = [] := by
  decide +kernel

end CBus.Props
