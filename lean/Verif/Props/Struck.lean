import Verif.Props.Noise
import Verif.Props.Burst

/-! # C171: a damaged report costs only itself -/

namespace CBus.Props
open CBus CBus.Spec

/-- A report as it arrives: as it was sent, or with one character before the end of the line changed, not the
first one to `+` or `!` unless `bang`. Or there is noise instead of one: any line with a character that is not a digit
or with a wrong checksum, unless it begins with a notification or a confirmation. -/
inductive Struck (bang : Bool) : Option PM → Bytes → Prop
  | whole (p : PM) (l : Bytes) (h : EventLine p l) : Struck bang (some p) l
  | changed (p : PM) (a b : Bytes) (c c' : UInt8) (h : EventLine p (a ++ c :: b ++ [0x0d, 0x0a])) (hne : c' ≠ c)
      (hb : bang = true ∨ ¬ (a = [] ∧ (c' = 0x2b ∨ c' = 0x21))) : Struck bang none (a ++ c' :: b ++ [0x0d, 0x0a])
  | noise (l : Bytes) (hl : PciLine l) (hm : (∃ c ∈ l, ¬ HexDigit c) ∨ ∃ m, HexPairs l m ∧ m ≠ [] ∧ ¬ SumsToZero m) :
      Struck bang none (l ++ [0x0d, 0x0a])

/-- The messages for a report; none for a damaged one. -/
def toldBy : Option PM → List MqttEff
  | some p => salMessages p.src (p.sals.map received)
  | none => []

/-- C171 in full: of reports that arrive in short pieces, with noise among them, and of any of which one character
is changed, all the others are still published. -/
def C171_claim : Prop :=
  ∀ (now : Nat → PyDateTime) (_ : ∀ n, DateTimeOk (now n)) (s : Client) (_ : Up s) (_ : s.mqttApi = true)
    (items : List (Option PM × Bytes)) (_ : ∀ i ∈ items, Struck true i.1 i.2) (chunks : List Bytes)
    (_ : chunks.flatten = (items.map (·.2)).flatten) (n : Nat) (_ : ∀ i ∈ items, i.2.length ≤ n)
    (_ : ∀ d ∈ chunks, d.length + n ≤ 257),
    ∃ r, feed maxBufferSize (Client.handle (Mqtt.cbusHook now)) chunks ⟨[], s⟩ = r ∧
      r.2.2 = .ok () ∧ r.1.buf = [] ∧ messagesOf r.2.1 = items.flatMap fun i => toldBy i.1

/-! ## One line -/

/-- A report is pairs of digits that sum to nothing. -/
theorem eventLine_pairs {p : PM} {t : Bytes} (h : EventLine p (t ++ [0x0d, 0x0a])) :
    ∃ m, HexPairs t m ∧ SumsToZero m ∧ 2 ≤ m.length ∧ m.head? = some (flagsByte .pm false p.prio) := by
  obtain ⟨h1, h2, ⟨a, h3, -⟩, w, h5, h6⟩ := h
  have hw : t = w := List.append_cancel_right h6
  subst hw
  obtain ⟨ab, b, e1, -⟩ := pm_encode p h1
  rw [h2, h3] at e1
  simp only [Packet.encodePacket, e1, bind, Except.bind, pure, Except.pure, Except.ok.injEq] at h5
  subst h5
  refine ⟨_, (b16decode_iff _ _).1 (b16decode_b16encode _), ?_, ?_, ?_⟩
  · exact (C01_checksum_valid _).2.2
  · simp [withSum, addChecksum, headerBytes]
  · simp [withSum, addChecksum, headerBytes]

theorem flags_some (prio : Prio) : (flagsByte .pm false prio).toNat ≠ 0 := by
  cases prio <;> decide

/-- A malformed line is one for an invalid packet. -/
theorem malformed_lineFor {l : Bytes} (hl : PciLine l) (hne : l ≠ []) (hm : Malformed l) :
    ∃ x e, LineFor (l ++ [0x0d, 0x0a]) (.invalid x e) := by
  obtain ⟨x, e, hx⟩ := decodeHex_malformed hm (l.length + 2) true false none
  refine ⟨x, e, by simp, fun rest => ?_⟩
  have e1 : l ++ [0x0d, 0x0a] ++ rest = l ++ 0x0d :: 0x0a :: rest := by simp
  rw [e1, decodePacket_pci_line hl]
  cases l with
  | nil => exact absurd rfl hne
  | cons a as => simpa [decodeLine] using hx

/-- Digits are malformed unless they sum to nothing. -/
theorem malformed_digits {t m : Bytes} (h : HexPairs t m) (hm : m ≠ []) (hs : ¬ SumsToZero m) : Malformed t := by
  refine .inr ⟨m, hm, ?_, hs⟩
  exact (b16encode_of_b16decode t m ((b16decode_iff t m).2 h)).symm

theorem pciLine_digits {t : Bytes} (h : ∀ c ∈ t, HexDigit c) : PciLine t := by
  constructor
  · intro hi
    exact (hex_not_special _ (h 0x0d (hi.mem (by simp)))).1 rfl
  · intro c hc
    have := hex_not_special c (h c (List.mem_of_mem_head? hc))
    exact ⟨this.2.2.2.1, this.2.2.2.2.1, this.2.2.2.2.2.1⟩

/-- A report of which one character is changed is malformed. -/
theorem changed_malformed {a b m : Bytes} {c c' : UInt8} (hp : HexPairs (a ++ c :: b) m) (hs : SumsToZero m) (hne : c' ≠ c) :
    Malformed (a ++ c' :: b) := by
  have hd := hexPairs_digits hp
  by_cases hc : HexDigit c'
  · have hd' : ∀ x ∈ a ++ c' :: b, HexDigit x := by
      intro x hx
      simp only [List.mem_append, List.mem_cons] at hx
      rcases hx with hx | rfl | hx
      · exact hd x (by simp [hx])
      · exact hc
      · exact hd x (by simp [hx])
    have hlen := pairs_length hp
    obtain ⟨m', hm'⟩ := pairs_of_digits (a ++ c' :: b) hd' (by
      simp only [List.length_append, List.length_cons] at hlen ⊢; omega)
    have hlen' := pairs_length hm'
    refine malformed_digits hm' (by rintro rfl; simp at hlen') fun hs' => ?_
    have w1 := worth_pairs hp
    have w2 := worth_pairs hm'
    unfold SumsToZero at hs hs'
    cases b with
    | cons d b =>
      have hcd : HexDigit d := hd d (by simp)
      have e1 : a ++ c :: d :: b = a ++ [c, d] ++ b := by simp
      have e2 : a ++ c' :: d :: b = a ++ [c', d] ++ b := by simp
      rw [e1] at w1
      rw [e2] at w2
      exact hne (worth_two a b c d c' d (hd c (by simp)) hcd hc hcd (by omega)).1.symm
    | nil =>
      obtain ⟨a', d, rfl⟩ : ∃ a' d, a = a' ++ [d] := by
        rcases List.eq_nil_or_concat a with rfl | ⟨a', d, h⟩
        · simp at hlen; omega
        · exact ⟨a', d, by simpa using h⟩
      have hcd : HexDigit d := hd d (by simp)
      have e1 : a' ++ [d] ++ [c] = a' ++ [d, c] ++ [] := by simp
      have e2 : a' ++ [d] ++ [c'] = a' ++ [d, c'] ++ [] := by simp
      rw [e1] at w1
      rw [e2] at w2
      exact hne (worth_two a' [] d c d c' hcd (hd c (by simp)) hcd hc (by omega)).2.symm
  · exact .inl ⟨c', by simp, hc⟩

/-- There is no end of a line in digits with another character among them. -/
theorem changed_whole {a b : Bytes} {c' : UInt8} (ha : ∀ x ∈ a, HexDigit x) (hb : ∀ x ∈ b, HexDigit x) :
    ¬ [0x0d, 0x0a] <:+: a ++ c' :: b := by
  intro hi
  have h1 := hi.sublist.countP_le (p := fun x => x == 0x0d || x == 0x0a)
  have h0 : ∀ t : Bytes, (∀ x ∈ t, HexDigit x) → t.countP (fun x => x == 0x0d || x == 0x0a) = 0 := by
    intro t ht
    rw [List.countP_eq_zero]
    intro x hx
    have := hex_not_special x (ht x hx)
    simp [this.1, this.2.1]
  rw [List.countP_append, h0 a ha, List.countP_cons (l := b), h0 b hb] at h1
  have h2 : ([0x0d, 0x0a] : Bytes).countP (fun x => x == 0x0d || x == 0x0a) = 2 := by decide
  rw [h2] at h1
  split at h1 <;> omega

/-- A confirmation code and another character are a confirmation. -/
theorem code_lineFor (c d : UInt8) (hc : c ∈ confirmationCodes) : LineFor [c, d] (.confirmation [c] (d == 0x2e)) := by
  have h1 : c ≠ 0x2b ∧ c ≠ 0x21 := by
    revert c; decide
  refine ⟨by simp, fun rest => ?_⟩
  unfold decodePacket framePci
  have h2 : ¬ (rest.length + 1 + 1 < 2) := by omega
  simp [h1.1, h1.2, hc, minMessageSize, h2]

/-! ## Many lines -/

/-- What arrives, as lines and the packets that they are taken for. -/
theorem struck_lines (n : Nat) : ∀ (items : List (Option PM × Bytes)), (∀ i ∈ items, Struck false i.1 i.2) →
    (∀ i ∈ items, i.2.length ≤ n) →
    ∃ its : List (Bytes × Packet), (its.map (·.1)).flatten = (items.map (·.2)).flatten ∧
      (∀ i ∈ its, LineFor i.1 i.2 ∧ i.1.length ≤ n) ∧
      ((its.map (·.2)).flatMap packetEvents).flatMap eventMessages = items.flatMap fun i => toldBy i.1
  | [], _, _ => ⟨[], rfl, by simp, rfl⟩
  | (o, l) :: items, hi, hl => by
    obtain ⟨its, e1, e2, e3⟩ := struck_lines n items (fun i h => hi i (by simp [h])) (fun i h => hl i (by simp [h]))
    have hn := hl (o, l) (by simp)
    simp only at hn
    have hst := hi (o, l) (by simp)
    clear hi hl
    -- it is enough to take the first one apart
    suffices h : ∃ its0 : List (Bytes × Packet), (its0.map (·.1)).flatten = l ∧
        (∀ i ∈ its0, LineFor i.1 i.2 ∧ i.1.length ≤ n) ∧
        ((its0.map (·.2)).flatMap packetEvents).flatMap eventMessages = toldBy o by
      obtain ⟨its0, g1, g2, g3⟩ := h
      refine ⟨its0 ++ its, ?_, ?_, ?_⟩
      · simp [g1, e1]
      · intro i h
        rcases List.mem_append.1 h with h | h
        · exact g2 i h
        · exact e2 i h
      · rw [List.map_append, List.flatMap_append, List.flatMap_append, g3, e3]; rfl
    simp only at hst
    cases hst with
    | whole p _ h =>
      refine ⟨[(l, .pm { p with sals := p.sals.map received, conf := none })], by simp, ?_, ?_⟩
      · intro i h'
        simp only [List.mem_singleton] at h'
        subst h'
        exact ⟨eventLine_lineFor h, hn⟩
      · simp [packetEvents, toldBy, salMessages]
    | noise l hl hm =>
      change (l ++ [0x0d, 0x0a]).length ≤ n at hn
      change ∃ its0 : List (Bytes × Packet), (its0.map (·.1)).flatten = l ++ [0x0d, 0x0a] ∧ _
      have hmal : Malformed l := by
        rcases hm with ⟨c, hc, hd⟩ | ⟨m, hp, hne, hs⟩
        · exact .inl ⟨c, hc, hd⟩
        · exact malformed_digits hp hne hs
      have hne : l ≠ [] := by
        rintro rfl
        rcases hm with ⟨c, hc, -⟩ | ⟨m, hp, hne, -⟩
        · cases hc
        · cases hp; exact hne rfl
      obtain ⟨x, e, hx⟩ := malformed_lineFor hl hne hmal
      refine ⟨[(l ++ [0x0d, 0x0a], .invalid x e)], by simp, ?_, rfl⟩
      intro i h'
      simp only [List.mem_singleton] at h'
      subst h'
      exact ⟨hx, hn⟩
    | changed p a b c c' h hne hb =>
      change (a ++ c' :: b ++ [0x0d, 0x0a]).length ≤ n at hn
      change ∃ its0 : List (Bytes × Packet), (its0.map (·.1)).flatten = a ++ c' :: b ++ [0x0d, 0x0a] ∧ _
      obtain ⟨m, hp, hs, hm2, hm0⟩ := eventLine_pairs h
      have hd := hexPairs_digits hp
      have one : PciLine (a ++ c' :: b) → ∃ its0 : List (Bytes × Packet), (its0.map (·.1)).flatten = a ++ c' :: b ++ [0x0d, 0x0a] ∧
          (∀ i ∈ its0, LineFor i.1 i.2 ∧ i.1.length ≤ n) ∧
          ((its0.map (·.2)).flatMap packetEvents).flatMap eventMessages = toldBy none := by
        intro hl'
        obtain ⟨x, e, hx⟩ := malformed_lineFor hl' (by simp) (changed_malformed hp hs hne)
        refine ⟨[(a ++ c' :: b ++ [0x0d, 0x0a], .invalid x e)], by simp, ?_, rfl⟩
        intro i h'
        simp only [List.mem_singleton] at h'
        subst h'
        exact ⟨hx, hn⟩
      have hw : ¬ [0x0d, 0x0a] <:+: a ++ c' :: b :=
        changed_whole (fun x hx => hd x (by simp [hx])) (fun x hx => hd x (by simp [hx]))
      cases a with
      | cons x a =>
        refine one ⟨hw, fun y hy => ?_⟩
        simp only [List.cons_append, List.head?_cons, Option.some.injEq] at hy
        subst hy
        have := hex_not_special x (hd x (by simp))
        exact ⟨this.2.2.2.1, this.2.2.2.2.1, this.2.2.2.2.2.1⟩
      | nil =>
        have hb' : c' ≠ 0x2b ∧ c' ≠ 0x21 := by
          simp only [Bool.false_eq_true, true_and, false_or, not_or] at hb
          exact hb
        by_cases hcc : c' ∈ confirmationCodes
        · -- the first two characters are taken for a confirmation
          simp only [List.nil_append] at hp
          cases hp with
          | cons _ d x t m' hc hd' hx hrest =>
            have hx0 : x.toNat ≠ 0 := by
              simp only [List.head?_cons, Option.some.injEq] at hm0
              rw [hm0]; exact flags_some p.prio
            have hm' : m' ≠ [] := by
              rintro rfl; simp at hm2
            have hbad : ¬ SumsToZero m' := by
              intro hs'
              unfold SumsToZero at hs hs'
              simp only [List.map_cons, List.sum_cons] at hs
              have := x.toNat_lt
              omega
            have hdt := hexPairs_digits hrest
            have hlen := pairs_length hrest
            have htne : t ≠ [] := by
              rintro rfl
              cases hrest
              exact hm' rfl
            obtain ⟨y, e, hy⟩ := malformed_lineFor (pciLine_digits hdt) htne (malformed_digits hrest hm' hbad)
            refine ⟨[([c', d], .confirmation [c'] (d == 0x2e)), (t ++ [0x0d, 0x0a], .invalid y e)], by simp, ?_, rfl⟩
            simp only [List.nil_append, List.length_append, List.length_cons] at hn
            intro i h'
            simp only [List.mem_cons, List.not_mem_nil, or_false] at h'
            rcases h' with rfl | rfl
            · exact ⟨code_lineFor c' d hcc, by simp; omega⟩
            · exact ⟨hy, by simp at hn ⊢; omega⟩
        · refine one ⟨hw, fun y hy => ?_⟩
          simp only [List.nil_append, List.head?_cons, Option.some.injEq] at hy
          subst hy
          exact ⟨hb'.1, hb'.2, hcc⟩

/-- C171 unless the first character of a report becomes `+` or `!`: the messages of the undamaged reports, in
order, and no others; nothing is left in the buffer.

What is missing: these two characters (`C171_fatal`). -/
theorem C171_partial (now : Nat → PyDateTime) (hnow : ∀ n, DateTimeOk (now n)) (s : Client) (hu : Up s)
    (ha : s.mqttApi = true) (items : List (Option PM × Bytes)) (hi : ∀ i ∈ items, Struck false i.1 i.2)
    (chunks : List Bytes) (hc : chunks.flatten = (items.map (·.2)).flatten) (n : Nat) (hl : ∀ i ∈ items, i.2.length ≤ n)
    (hd : ∀ d ∈ chunks, d.length + n ≤ 257) :
    ∃ r, feed maxBufferSize (Client.handle (Mqtt.cbusHook now)) chunks ⟨[], s⟩ = r ∧
      r.2.2 = .ok () ∧ r.1.buf = [] ∧ messagesOf r.2.1 = items.flatMap fun i => toldBy i.1 := by
  obtain ⟨its, e1, e2, e3⟩ := struck_lines n items hi hl
  have hfit : Fits maxBufferSize (Client.handle (Mqtt.cbusHook now)) chunks ⟨[], s⟩ := by
    have hI : ∀ p s, Up s → (Client.onPacket (Mqtt.cbusHook now) p s).2.2 = .ok () ∧ Up (Client.onPacket (Mqtt.cbusHook now) p s).1 :=
      fun p s hs => ⟨(C62_packet now hnow p s hs).2, (cbus_up now hnow p s hs).1⟩
    cases its with
    | nil =>
      rw [← e1] at hc
      simp only [List.map_nil, List.flatten_nil, List.flatten_eq_nil_iff] at hc
      exact fits_lines _ Up hI 1 (by decide) [] (by simp) chunks s hu (by simpa using hc)
        (fun d h => by rw [hc d h]; decide)
    | cons i its =>
      have h0 : 0 < n := by
        have h1 := (e2 i (by simp)).1.1
        have h2 := (e2 i (by simp)).2
        have := List.length_pos_iff.mpr h1
        omega
      exact fits_lines _ Up hI n h0 _ e2 chunks s hu (by rw [hc, e1]) hd
  obtain ⟨s', o, h1, -, -, -, h3⟩ := runPackets_cbus now hnow (its.map (·.2)) s hu
  have := Client.feed_lines (Mqtt.cbusHook now) its chunks s s' o (fun i h => (e2 i h).1) h1 (by rw [hc, e1]) hfit
  refine ⟨_, this, rfl, rfl, ?_⟩
  rw [h3, ha, if_pos rfl, e3]

/-- The same over TCP: the connection is kept. -/
theorem C171_tcp_partial (now : Nat → PyDateTime) (hnow : ∀ n, DateTimeOk (now n)) (s : Client) (hu : Up s)
    (ha : s.mqttApi = true) (hf : s.future = .pending) (items : List (Option PM × Bytes))
    (hi : ∀ i ∈ items, Struck false i.1 i.2) (chunks : List Bytes) (hc : chunks.flatten = (items.map (·.2)).flatten) (n : Nat)
    (hl : ∀ i ∈ items, i.2.length ≤ n) (hd : ∀ d ∈ chunks, d.length + n ≤ 257) :
    let r := Client.tcpSession (Mqtt.cbusHook now) chunks ⟨[], s⟩
    r.1.st.connected = true ∧ r.1.st.future = .pending ∧ messagesOf r.2 = items.flatMap fun i => toldBy i.1 := by
  obtain ⟨⟨c, o, r⟩, hz, h1, -, h3⟩ := C171_partial now hnow s hu ha items hi chunks hc n hl hd
  simp only at h1 h3
  subst h1
  obtain ⟨k, -, h4⟩ := (C102_daemon now hnow s hu [] chunks c o _).1 hz
  simp only [tcp_feed now chunks ⟨[], s⟩ c o _ hu.1 hf hz]
  rw [h4]
  exact ⟨hu.1, hf, h3⟩

/-- A report of which the first character becomes `+` or `!`: what is behind it in the line is an odd number of
digits, over which the decoder raises. Nothing is published, and the line stays in the buffer; over TCP the
connection is lost. -/
theorem C171_fatal (now : Nat → PyDateTime) (s : Client) (hc : s.connected = true) (hf : s.future = .pending) (p : PM)
    (c c' : UInt8) (b rest : Bytes) (h : EventLine p (c :: b ++ [0x0d, 0x0a])) (hc' : c' = 0x2b ∨ c' = 0x21)
    (hl : (c' :: b ++ 0x0d :: 0x0a :: rest).length ≤ 256) (ds : List Bytes) :
    (∃ o e, Client.dataReceived (Mqtt.cbusHook now) (c' :: b ++ 0x0d :: 0x0a :: rest) ⟨[], s⟩ =
      (⟨b ++ 0x0d :: 0x0a :: rest, s⟩, o, .error e) ∧ messagesOf o = []) ∧
    (Client.tcpSession (Mqtt.cbusHook now) ((c' :: b ++ 0x0d :: 0x0a :: rest) :: ds) ⟨[], s⟩).1.st = lost s := by
  obtain ⟨m, hp, -, -, -⟩ := eventLine_pairs (t := c :: b) h
  have hd := hexPairs_digits hp
  have hdb : ∀ x ∈ b, HexDigit x := fun x hx => hd x (by simp [hx])
  have hlen := pairs_length hp
  have hodd : b.length % 2 = 1 := by simp only [List.length_cons] at hlen; omega
  have hbne : b ≠ [] := by rintro rfl; simp at hodd
  obtain ⟨e, he⟩ := (C42_client_line (Mqtt.cbusHook now) b (pciLine_digits hdb)).1 ⟨hbne, hdb, .inl hodd⟩
  have hfirst : ∃ (o : List (Eff MqttEff)), Client.handle (Mqtt.cbusHook now) (c' :: b ++ 0x0d :: 0x0a :: rest) s = (s, o, .ok 1) ∧
      messagesOf o = [] := by
    rcases hc' with rfl | rfl
    · exact ⟨[], rfl, rfl⟩
    · refine ⟨[.event .cannotAcceptData], ?_, rfl⟩
      have h1 := C62_event now .cannotAcceptData (by simp) s
      unfold Client.handle handleData
      have hdp : decodePacket (0x21 :: b ++ 0x0d :: 0x0a :: rest) true true (!false) = .ok (some .pciError, 1) := rfl
      simp only [hdp]
      have e : Client.onPacket (Mqtt.cbusHook now) .pciError s = (s, [.event .cannotAcceptData], .ok ()) := by
        have e0 : Client.onPacket (Mqtt.cbusHook now) .pciError = Client.call (Mqtt.cbusHook now) .cannotAcceptData := rfl
        rw [e0]
        have e2 : (if s.mqttApi = true then List.map Eff.ext (eventMessages .cannotAcceptData) else []) = ([] : List (Eff MqttEff)) := by
          split <;> rfl
        simp only [Client.call, Proc.andThen, Proc.emit, h1, e2, List.append_nil]
      simp [Proc.andThen, pure, e]
  obtain ⟨o, h1, h2⟩ := hfirst
  have hrec : Client.dataReceived (Mqtt.cbusHook now) (c' :: b ++ 0x0d :: 0x0a :: rest) ⟨[], s⟩ =
      (⟨b ++ 0x0d :: 0x0a :: rest, s⟩, o, .error e) := by
    unfold Client.dataReceived dataReceived
    rw [if_neg (by simp only [maxBufferSize]; omega), if_neg (by simp only [maxBufferSize, List.length_nil]; omega)]
    simp only [List.nil_append]
    rw [processBuffer_step (by simp) h1 (by decide)]
    simp only [show ((1 : Int).toNat) = 1 from rfl, List.cons_append, List.drop_succ_cons, List.drop_zero, he rest s]
    simp
  refine ⟨⟨o, e, hrec, h2⟩, ?_⟩
  have hfeed : feed maxBufferSize (Client.handle (Mqtt.cbusHook now)) ((c' :: b ++ 0x0d :: 0x0a :: rest) :: ds) ⟨[], s⟩ =
      (⟨b ++ 0x0d :: 0x0a :: rest, s⟩, o, .error e) := by
    unfold Client.dataReceived at hrec
    simp only [feed, Proc.andThen, hrec]
  rw [tcp_feed now _ _ _ _ _ hc hf hfeed]

theorem C171_false : ¬ C171_claim := by
  intro h
  have ht : EventLine lampOn (0x30 :: ascii "5053800790144" ++ [0x0d, 0x0a]) := lampOn_line
  obtain ⟨r, h1, h2, -⟩ := h (fun _ => someTime) (fun _ => someTime_ok) { connected := true, mqttApi := true, future := .pending }
    ⟨rfl, by decide⟩ rfl [(none, 0x21 :: ascii "5053800790144" ++ [0x0d, 0x0a])]
    (by
      intro i hi
      simp only [List.mem_singleton] at hi
      subst hi
      exact .changed lampOn [] (ascii "5053800790144") 0x30 0x21 ht (by decide) (.inl rfl))
    [0x21 :: ascii "5053800790144" ++ [0x0d, 0x0a]] (by simp) 16 (by decide) (by decide)
  rw [← h1] at h2
  revert h2
  decide +kernel

/-- Of three reports the second is damaged: in the middle, with a letter for its first character, with a CR; or it is no report. -/
example :
    let s : Client := { connected := true, mqttApi := true, future := .pending }
    let good := ascii "05053800790144\r\n"
    ∀ bad ∈ [ascii "05053800790244\r\n", ascii "h5053800790144\r\n", ascii "0505380079014\r\r\n",
        ascii "What is this?\r\n"],
      (feed maxBufferSize (Client.handle (Mqtt.cbusHook fun _ => someTime)) [good ++ bad ++ good] ⟨[], s⟩).1 = ⟨[], s⟩ ∧
      messagesOf (feed maxBufferSize (Client.handle (Mqtt.cbusHook fun _ => someTime)) [good ++ bad ++ good] ⟨[], s⟩).2.1 =
        toldBy (some lampOn) ++ toldBy (some lampOn) ∧ toldBy (some lampOn) ≠ [] := by decide +kernel

/-- Such a line is noise. -/
example : Struck false none (ascii "What is this?" ++ [0x0d, 0x0a]) :=
  .noise _ ⟨fun h => absurd (h.mem (List.mem_cons_self : (0x0d : UInt8) ∈ _)) (by decide), by decide +kernel⟩ (.inl ⟨0x57, by decide, by unfold HexDigit; decide⟩)

/-- The same with `!` for its first character: only the first is published. -/
example :
    let s : Client := { connected := true, mqttApi := true, future := .pending }
    let good := ascii "05053800790144\r\n"
    messagesOf (feed maxBufferSize (Client.handle (Mqtt.cbusHook fun _ => someTime)) [good ++ ascii "!5053800790144\r\n" ++ good]
      ⟨[], s⟩).2.1 = toldBy (some lampOn) := by decide +kernel

end CBus.Props
