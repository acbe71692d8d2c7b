import Verif.Props.Struck
import Verif.Props.EndToEnd

/-! # C179: damaged confirmations -/

namespace CBus.Props
open CBus CBus.Spec
variable {π : Type}

/-- What a PCI says as it arrives, what the client must hear of it in any case, and all that it hears: a report; a confirmation;
or a confirmation with other characters, of which the first is no code any more only if `first`. -/
inductive PciSays (first : Bool) : List Event → List Event → Bytes → Prop
  | report (p : PM) (l : Bytes) (h : EventLine p l) :
      PciSays first ((p.sals.map received).filterMap (salEvent p.src)) ((p.sals.map received).filterMap (salEvent p.src)) l
  | confirmed (c : UInt8) (ok : Bool) (hc : c ∈ confirmationCodes) :
      PciSays first [.confirmation [c] ok] [.confirmation [c] ok] [c, if ok then 0x2e else 0x23]
  | damaged (c d : UInt8) (hc : first = true ∨ c ∈ confirmationCodes) :
      PciSays first [] [.confirmation [c] (d == 0x2e)] [c, d]

/-- Something that arrives. -/
structure Saying where
  must : List Event
  told : List Event
  line : Bytes

/-- C179 in full: whatever becomes of some confirmations, all other confirmations and all reports are still heard. -/
def C179_claim : Prop :=
  ∀ (now : Nat → PyDateTime) (_ : ∀ n, DateTimeOk (now n)) (s : Client) (_ : Up s) (items : List Saying)
    (_ : ∀ i ∈ items, PciSays true i.must i.told i.line) (chunks : List Bytes) (_ : chunks.flatten = items.flatMap (·.line))
    (n : Nat) (_ : 0 < n) (_ : n ≤ 256) (_ : ∀ i ∈ items, i.line.length ≤ n) (_ : ∀ d ∈ chunks, d.length ≤ 256 - n),
    ∃ r, feed maxBufferSize (Client.handle (π := Nat) (Client.baseHook now)) chunks ⟨[], s⟩ = r ∧
      (items.flatMap (·.must)).Sublist (eventsOf r.2.1)

/-- C179 while the first character of a damaged confirmation is still a code: the client hears of every report and of every
confirmation, in order, as they are; of a damaged one it hears a success only if the second character is a full stop, for whatever
code the first one is. Nothing is left in the buffer.

What is missing: a first character that is no code any more, see `C179_false`. -/
theorem C179_partial (now : Nat → PyDateTime) (hnow : ∀ n, DateTimeOk (now n)) (s : Client) (hu : Up s) (items : List Saying)
    (hi : ∀ i ∈ items, PciSays false i.must i.told i.line) (chunks : List Bytes) (hch : chunks.flatten = items.flatMap (·.line))
    (n : Nat) (h0 : 0 < n) (hn : n ≤ 256) (hl : ∀ i ∈ items, i.line.length ≤ n) (hd : ∀ d ∈ chunks, d.length ≤ 256 - n) :
    ∃ r, feed maxBufferSize (Client.handle (π := π) (Client.baseHook now)) chunks ⟨[], s⟩ = r ∧
      r.2.2 = .ok () ∧ r.1.buf = [] ∧ eventsOf r.2.1 = items.flatMap (·.told) ∧
      (items.flatMap (·.must)).Sublist (eventsOf r.2.1) := by
  have hpk : ∀ (items : List Saying), (∀ i ∈ items, PciSays false i.must i.told i.line) → (∀ i ∈ items, i.line.length ≤ n) →
      ∃ its : List (Bytes × Option Packet), (its.map (·.1)).flatten = items.flatMap (·.line) ∧
        (∀ i ∈ its, i.1 ≠ [] ∧ i.1.length ≤ n ∧ ∀ rest, decodePacket (i.1 ++ rest) true true true = .ok (i.2, i.1.length)) ∧
        (its.flatMap fun i => i.2.toList.flatMap packetEvents) = items.flatMap (·.told) ∧
        (items.flatMap (·.must)).Sublist (items.flatMap (·.told)) := by
    intro items
    induction items with
    | nil => intro _ _; exact ⟨[], rfl, by simp, rfl, .slnil⟩
    | cons i items ih =>
      intro hi hl
      obtain ⟨its, e1, e2, e3, e4⟩ := ih (fun j h => hi j (by simp [h])) (fun j h => hl j (by simp [h]))
      obtain ⟨must, told, line⟩ := i
      have ha := hi ⟨must, told, line⟩ (by simp)
      have hlen := hl ⟨must, told, line⟩ (by simp)
      simp only at ha hlen
      have one : ∃ p, LineFor line p ∧ packetEvents p = told ∧ must.Sublist told := by
        cases ha with
        | report p _ h =>
          exact ⟨_, eventLine_lineFor h, rfl, .refl _⟩
        | confirmed c ok hc =>
          refine ⟨_, code_lineFor c _ hc, ?_, .refl _⟩
          cases ok <;> rfl
        | damaged c d hc =>
          exact ⟨_, code_lineFor c d (hc.resolve_left (by decide)), rfl, List.nil_sublist _⟩
      obtain ⟨p, hp, hp2, hp3⟩ := one
      refine ⟨(line, some p) :: its, ?_, ?_, ?_, ?_⟩
      · simp [e1]
      · intro j hj
        rcases List.mem_cons.1 hj with rfl | hj
        · exact ⟨hp.1, hlen, hp.2⟩
        · exact e2 j hj
      · simp only [List.flatMap_cons, Option.toList_some, List.flatMap_nil, List.append_nil, hp2, e3]
      · simp only [List.flatMap_cons]
        exact hp3.append e4
  obtain ⟨its, e1, e2, e3, e4⟩ := hpk items hi hl
  obtain ⟨s', o, r, -, he⟩ := client_run (π := π) now hnow n its s hu e2
  rw [e1, ← hch] at r
  have hf := Run.fits (clientChunkable _) h0 maxBufferSize hn chunks o r hd
  refine ⟨_, Run.feed (clientChunkable _) h0 maxBufferSize chunks o r hf, rfl, rfl, ?_, ?_⟩
  · exact he.trans e3
  · simp only [he, e3]
    exact e4

/-- A confirmation of which the first character is no code any more, the confirmations that come at once behind it, and the
line that comes behind those, which may be a report, damaged or not; with what the client hears of all this. -/
inductive Swallowed : List Event → Bytes → Prop
  | intro (c : UInt8) (ok : Bool) (others : List (UInt8 × Bool)) (t : Bytes) (hc : c ∉ confirmationCodes)
      (ho : ∀ x ∈ others, x.1 ∈ confirmationCodes) (ht : 0x0a ∉ t) :
      Swallowed (if c = 0x21 then [.cannotAcceptData] else [])
        (c :: (if ok then 0x2e else 0x23) :: (others.flatMap fun x => [x.1, if x.2 then 0x2e else 0x23]) ++ t ++ [0x0d, 0x0a])

/-- In particular a report may be lost like that. -/
theorem swallowed_report (c : UInt8) (ok : Bool) (others : List (UInt8 × Bool)) (p : PM) (t : Bytes) (hc : c ∉ confirmationCodes)
    (ho : ∀ x ∈ others, x.1 ∈ confirmationCodes) (h : EventLine p (t ++ [0x0d, 0x0a])) :
    Swallowed (if c = 0x21 then [.cannotAcceptData] else [])
      (c :: (if ok then 0x2e else 0x23) :: (others.flatMap fun x => [x.1, if x.2 then 0x2e else 0x23]) ++ t ++ [0x0d, 0x0a]) := by
  obtain ⟨m, hm, -⟩ := eventLine_pairs h
  exact .intro c ok others t hc ho fun h1 => (hex_not_special _ (hexPairs_digits hm _ h1)).2.1 rfl

/-- One line, after a character that is taken alone or not. -/
theorem swallowed_lines {told : List Event} {line : Bytes} (h : Swallowed told line) :
    ∃ its : List (Bytes × Packet), (its.map (·.1)).flatten = line ∧ (∀ i ∈ its, LineFor i.1 i.2) ∧
      (its.flatMap fun i => packetEvents i.2) = told := by
  cases h with
  | intro c ok others t hc ho ht =>
    generalize hx : (if ok then 0x2e else 0x23 : UInt8) = x
    have hx1 : ¬ IsUpperHex x ∧ x ≠ 0x2b ∧ x ≠ 0x21 ∧ x ∉ confirmationCodes ∧ x ≠ 0x0a := by
      subst hx; cases ok <;> decide
    generalize hw : (others.flatMap fun x => [x.1, if x.2 then 0x2e else 0x23]) ++ t = w
    have hwn : (0x0a : UInt8) ∉ w := by
      subst hw
      intro hmem
      rcases List.mem_append.1 hmem with h1 | h1
      · obtain ⟨y, hy, h2⟩ := List.mem_flatMap.1 h1
        have h3 := ho y hy
        simp only [List.mem_cons, List.not_mem_nil, or_false] at h2
        rcases h2 with h2 | h2
        · rw [← h2] at h3; revert h3; decide
        · revert h2; cases y.2 <;> decide
      · exact ht h1
    have hn1 : (0x0a : UInt8) ∉ x :: w := by
      intro h1
      rcases List.mem_cons.1 h1 with h1 | h1
      · exact hx1.2.2.2.2 h1.symm
      · exact hwn h1
    have hi1 : ¬ [0x0d, 0x0a] <:+: x :: w := fun h1 => hn1 (h1.mem (by simp))
    have hi2 : ¬ [0x0d, 0x0a] <:+: c :: x :: w := by
      intro h1
      rcases List.infix_cons_iff.1 h1 with h1 | h1
      · obtain ⟨r, h2⟩ := h1
        simp only [List.cons_append, List.nil_append, List.cons.injEq] at h2
        exact hx1.2.2.2.2 h2.2.1.symm
      · exact hi1 h1
    have e0 : c :: x :: (others.flatMap fun x => [x.1, if x.2 then 0x2e else 0x23]) ++ t ++ [0x0d, 0x0a] =
        c :: x :: w ++ [0x0d, 0x0a] := by rw [← hw]; simp
    rw [e0]
    by_cases h1 : c = 0x2b ∨ c = 0x21
    · obtain ⟨y, e, hl⟩ := malformed_lineFor (l := x :: w)
        ⟨hi1, fun a ha => by simp at ha; subst ha; exact ⟨hx1.2.1, hx1.2.2.1, hx1.2.2.2.1⟩⟩ (by simp) (.inl ⟨x, by simp, hx1.1⟩)
      rcases h1 with rfl | rfl
      · refine ⟨[([0x2b], .powerOn), (x :: w ++ [0x0d, 0x0a], .invalid y e)], by simp, ?_, ?_⟩
        · intro i hi
          rcases List.mem_cons.1 hi with rfl | hi
          · exact ⟨by simp, fun rest => by simp [decodePacket, framePci]⟩
          · rw [List.mem_singleton.1 hi]; exact hl
        · simp [packetEvents]
      · refine ⟨[([0x21], .pciError), (x :: w ++ [0x0d, 0x0a], .invalid y e)], by simp, ?_, ?_⟩
        · intro i hi
          rcases List.mem_cons.1 hi with rfl | hi
          · exact ⟨by simp, fun rest => by simp [decodePacket, framePci]⟩
          · rw [List.mem_singleton.1 hi]; exact hl
        · simp [packetEvents]
    · have h2 : c ≠ 0x2b ∧ c ≠ 0x21 := ⟨fun h => h1 (.inl h), fun h => h1 (.inr h)⟩
      obtain ⟨y, e, hl⟩ := malformed_lineFor (l := c :: x :: w)
        ⟨hi2, fun a ha => by simp at ha; subst ha; exact ⟨h2.1, h2.2, hc⟩⟩ (by simp) (.inl ⟨x, by simp, hx1.1⟩)
      refine ⟨[(c :: x :: w ++ [0x0d, 0x0a], .invalid y e)], by simp, ?_, ?_⟩
      · intro i hi
        rw [List.mem_singleton.1 hi]; exact hl
      · simp [packetEvents, h2.2]

/-- C179 for a first character that is no code any more: that confirmation, those that come at once behind it, and the next report
are lost, and that is all. What came before is heard, and so is all that comes behind that report. An exclamation mark is taken
for a PCI that cannot accept data. -/
theorem C179_swallowed (now : Nat → PyDateTime) (hnow : ∀ n, DateTimeOk (now n)) (s : Client) (hu : Up s) (items : List Saying)
    (hi : ∀ i ∈ items, PciSays false i.must i.told i.line ∨ (i.must = [] ∧ Swallowed i.told i.line)) (chunks : List Bytes)
    (hch : chunks.flatten = items.flatMap (·.line)) (n : Nat) (h0 : 0 < n) (hn : n ≤ 256) (hl : ∀ i ∈ items, i.line.length ≤ n)
    (hd : ∀ d ∈ chunks, d.length ≤ 256 - n) :
    ∃ r, feed maxBufferSize (Client.handle (π := π) (Client.baseHook now)) chunks ⟨[], s⟩ = r ∧
      r.2.2 = .ok () ∧ r.1.buf = [] ∧ eventsOf r.2.1 = items.flatMap (·.told) := by
  have hpk : ∀ (items : List Saying), (∀ i ∈ items, PciSays false i.must i.told i.line ∨ (i.must = [] ∧ Swallowed i.told i.line)) →
      (∀ i ∈ items, i.line.length ≤ n) →
      ∃ its : List (Bytes × Option Packet), (its.map (·.1)).flatten = items.flatMap (·.line) ∧
        (∀ i ∈ its, i.1 ≠ [] ∧ i.1.length ≤ n ∧ ∀ rest, decodePacket (i.1 ++ rest) true true true = .ok (i.2, i.1.length)) ∧
        (its.flatMap fun i => i.2.toList.flatMap packetEvents) = items.flatMap (·.told) := by
    intro items
    induction items with
    | nil => intro _ _; exact ⟨[], rfl, by simp, rfl⟩
    | cons i items ih =>
      intro hi hl
      obtain ⟨its, e1, e2, e3⟩ := ih (fun j h => hi j (by simp [h])) (fun j h => hl j (by simp [h]))
      obtain ⟨must, told, line⟩ := i
      have ha := hi ⟨must, told, line⟩ (by simp)
      have hlen := hl ⟨must, told, line⟩ (by simp)
      simp only at ha hlen
      have one : ∃ its : List (Bytes × Packet), (its.map (·.1)).flatten = line ∧ (∀ i ∈ its, LineFor i.1 i.2) ∧
          (its.flatMap fun i => packetEvents i.2) = told := by
        have single : ∀ p, LineFor line p → packetEvents p = told → ∃ its : List (Bytes × Packet),
            (its.map (·.1)).flatten = line ∧ (∀ i ∈ its, LineFor i.1 i.2) ∧ (its.flatMap fun i => packetEvents i.2) = told :=
          fun p h1 h2 => ⟨[(line, p)], by simp, by simpa using h1, by simpa using h2⟩
        rcases ha with ha | ⟨-, ha⟩
        · cases ha with
          | report p _ h => exact single _ (eventLine_lineFor h) rfl
          | confirmed c ok hc => exact single _ (code_lineFor c _ hc) (by cases ok <;> rfl)
          | damaged c d hc => exact single _ (code_lineFor c d (hc.resolve_left (by decide))) rfl
        · exact swallowed_lines ha
      obtain ⟨own, g1, g2, g3⟩ := one
      refine ⟨own.map (fun i => (i.1, some i.2)) ++ its, ?_, ?_, ?_⟩
      · simp [e1, ← g1, Function.comp_def]
      · intro j hj
        rcases List.mem_append.1 hj with hj | hj
        · obtain ⟨k, hk, rfl⟩ := List.mem_map.1 hj
          refine ⟨(g2 k hk).1, Nat.le_trans ?_ hlen, (g2 k hk).2⟩
          rw [← g1]
          exact (List.sublist_flatten_of_mem (List.mem_map_of_mem (f := (·.1)) hk)).length_le
        · exact e2 j hj
      · simp only [List.flatMap_append, List.flatMap_cons, e3, ← g3, List.flatMap_map, Option.toList_some, List.flatMap_nil,
          List.append_nil]
  obtain ⟨its, e1, e2, e3⟩ := hpk items hi hl
  obtain ⟨s', o, r, -, he⟩ := client_run (π := π) now hnow n its s hu e2
  rw [e1, ← hch] at r
  have hf := Run.fits (clientChunkable _) h0 maxBufferSize hn chunks o r hd
  exact ⟨_, Run.feed (clientChunkable _) h0 maxBufferSize chunks o r hf, rfl, rfl, he.trans e3⟩

/-- A code becomes a digit, or an exclamation mark; the second report after it is heard again. -/
example :
    let heard (d : Bytes) := eventsOf (feed maxBufferSize (Client.handle (π := Nat) (Client.baseHook fun _ => someTime)) [d]
      ⟨[], { connected := true, future := .pending }⟩).2.1
    heard (ascii "h.8.j.05053800790144\r\nk.05053800790144\r\n") = [.confirmation (ascii "h") true,
      .confirmation (ascii "k") true, .lightingOn (some 5) 1] ∧
    heard (ascii "h.!.j.05053800790144\r\nk.05053800790144\r\n") = [.confirmation (ascii "h") true, .cannotAcceptData,
      .confirmation (ascii "k") true, .lightingOn (some 5) 1] := by
  decide +kernel

/-- What arrives at the daemon, and what it must publish of it: a report, damaged or not (`Struck`); a confirmation, of which the
second character may be any; or a confirmation that takes others and a report with it. -/
inductive Amid : List MqttEff → Bytes → Prop
  | report (o : Option PM) (l : Bytes) (h : Struck false o l) : Amid (toldBy o) l
  | confirmation (c d : UInt8) (hc : c ∈ confirmationCodes) : Amid [] [c, d]
  | swallowed (told : List Event) (l : Bytes) (h : Swallowed told l) : Amid [] l

theorem amid_lines (n : Nat) : ∀ (items : List (List MqttEff × Bytes)), (∀ i ∈ items, Amid i.1 i.2) →
    (∀ i ∈ items, i.2.length ≤ n) →
    ∃ its : List (Bytes × Packet), (its.map (·.1)).flatten = (items.map (·.2)).flatten ∧
      (∀ i ∈ its, LineFor i.1 i.2 ∧ i.1.length ≤ n) ∧
      ((its.map (·.2)).flatMap packetEvents).flatMap eventMessages = items.flatMap (·.1)
  | [], _, _ => ⟨[], rfl, by simp, rfl⟩
  | (ms, l) :: items, hi, hl => by
    obtain ⟨its, e1, e2, e3⟩ := amid_lines n items (fun i h => hi i (by simp [h])) (fun i h => hl i (by simp [h]))
    have hn := hl (ms, l) (by simp)
    have hst := hi (ms, l) (by simp)
    simp only at hn hst
    clear hi hl
    suffices h : ∃ its0 : List (Bytes × Packet), (its0.map (·.1)).flatten = l ∧
        (∀ i ∈ its0, LineFor i.1 i.2 ∧ i.1.length ≤ n) ∧
        ((its0.map (·.2)).flatMap packetEvents).flatMap eventMessages = ms by
      obtain ⟨its0, g1, g2, g3⟩ := h
      refine ⟨its0 ++ its, ?_, ?_, ?_⟩
      · simp [g1, e1]
      · intro i h
        rcases List.mem_append.1 h with h | h
        · exact g2 i h
        · exact e2 i h
      · rw [List.map_append, List.flatMap_append, List.flatMap_append, g3, e3]; rfl
    cases hst with
    | report o _ h =>
      obtain ⟨its0, g1, g2, g3⟩ := struck_lines n [(o, l)] (by simpa using h) (by simpa using hn)
      exact ⟨its0, by simpa using g1, g2, by simpa using g3⟩
    | confirmation c d hc =>
      exact ⟨[([c, d], .confirmation [c] (d == 0x2e))], by simp, by simpa using ⟨code_lineFor c d hc, hn⟩, rfl⟩
    | swallowed told _ h =>
      obtain ⟨its0, g1, g2, g3⟩ := swallowed_lines h
      refine ⟨its0, g1, fun i hi => ⟨g2 i hi, Nat.le_trans ?_ hn⟩, ?_⟩
      · rw [← g1]
        exact (List.sublist_flatten_of_mem (List.mem_map_of_mem (f := (·.1)) hi)).length_le
      · rw [List.flatMap_map, g3]
        cases h
        split <;> rfl

/-- C179 for the daemon, with C171: reports and confirmations arrive in short pieces, any of the reports with one character changed
(but the first one not to `+` or `!`), any of the confirmations with one of its two changed. All the reports that are not damaged and do not
follow a confirmation without a code are published, in order, and nothing else; over TCP the connection is kept. -/
theorem C179_published (now : Nat → PyDateTime) (hnow : ∀ n, DateTimeOk (now n)) (s : Client) (hu : Up s)
    (ha : s.mqttApi = true) (hf : s.future = .pending) (items : List (List MqttEff × Bytes)) (hi : ∀ i ∈ items, Amid i.1 i.2)
    (chunks : List Bytes) (hc : chunks.flatten = (items.map (·.2)).flatten) (n : Nat) (h0 : 0 < n)
    (hl : ∀ i ∈ items, i.2.length ≤ n) (hd : ∀ d ∈ chunks, d.length + n ≤ 257) :
    let r := Client.tcpSession (Mqtt.cbusHook now) chunks ⟨[], s⟩
    r.1.st.connected = true ∧ r.1.st.future = .pending ∧ r.1.buf = [] ∧ messagesOf r.2 = items.flatMap (·.1) := by
  obtain ⟨its, e1, e2, e3⟩ := amid_lines n items hi hl
  have hI : ∀ p s, Up s → (Client.onPacket (Mqtt.cbusHook now) p s).2.2 = .ok () ∧ Up (Client.onPacket (Mqtt.cbusHook now) p s).1 :=
    fun p s hs => ⟨(C62_packet now hnow p s hs).2, (cbus_up now hnow p s hs).1⟩
  have hfit := fits_lines _ Up hI n h0 _ e2 chunks s hu (by rw [hc, e1]) hd
  obtain ⟨s', o, h1, -, -, -, h3⟩ := runPackets_cbus now hnow (its.map (·.2)) s hu
  have hz := Client.feed_lines (Mqtt.cbusHook now) its chunks s s' o (fun i h => (e2 i h).1) h1 (by rw [hc, e1]) hfit
  obtain ⟨k, -, h4⟩ := (C102_daemon now hnow s hu [] chunks _ o _).1 hz
  simp only at h4
  subst h4
  simp only [tcp_feed now chunks ⟨[], s⟩ _ o _ hu.1 hf hz]
  exact ⟨hu.1, hf, trivial, by rw [h3, ha, if_pos rfl, e3]⟩

/-- Of three reports the first one is lost with the confirmations before it, the second one is damaged, and the last one is published. -/
example :
    let r := Client.tcpSession (Mqtt.cbusHook fun _ => someTime)
      [ascii "h.8.j.05053800790144\r\nk?05053800790", ascii "244\r\nl.05053800790144\r\n"]
      ⟨[], { connected := true, future := .pending, mqttApi := true }⟩
    messagesOf r.2 = eventMessages (.lightingOn (some 5) 1) ∧ r.1.buf = [] ∧ r.1.st.connected = true := by
  decide +kernel

/-- A confirmation whose code becomes a digit takes all confirmations behind it and the next report with it. -/
theorem C179_false : ¬ C179_claim := by
  intro h
  have ht : EventLine lampOn (0x30 :: ascii "5053800790144" ++ [0x0d, 0x0a]) := lampOn_line
  obtain ⟨r, h1, h2⟩ := h (fun _ => someTime) (fun _ => someTime_ok) { connected := true, future := .pending } ⟨rfl, by decide⟩
    [⟨_, _, _⟩, ⟨_, _, _⟩, ⟨_, _, _⟩]
    (by
      intro i hi
      simp only [List.mem_cons, List.not_mem_nil, or_false] at hi
      rcases hi with rfl | rfl | rfl
      · exact .damaged 0x38 0x2e (.inl rfl)
      · exact .confirmed 0x69 true (by decide)
      · exact .report lampOn _ ht)
    [ascii "8.i.05053800790144\r\n"] (by decide +kernel) 16 (by decide) (by decide) (by
      intro i hi
      simp only [List.mem_cons, List.not_mem_nil, or_false] at hi
      rcases hi with rfl | rfl | rfl <;> decide) (by decide)
  subst h1
  have h3 := h2.length_le
  revert h3
  decide +kernel

/-- The second of three confirmations becomes that of another command, or a refusal; then there is a report. -/
example :
    let heard (d : Bytes) := eventsOf (feed maxBufferSize (Client.handle (π := Nat) (Client.baseHook fun _ => someTime)) [d]
      ⟨[], { connected := true, future := .pending }⟩).2.1
    heard (ascii "h.z.j.05053800790144\r\n") = [.confirmation (ascii "h") true, .confirmation (ascii "z") true,
      .confirmation (ascii "j") true, .lightingOn (some 5) 1] ∧
    heard (ascii "h.i8j.05053800790144\r\n") = [.confirmation (ascii "h") true, .confirmation (ascii "i") false,
      .confirmation (ascii "j") true, .lightingOn (some 5) 1] := by
  decide +kernel

end CBus.Props
