import Verif.Props.Load

/-! # C152: a report from which characters are lost -/

namespace CBus.Props
open CBus CBus.Spec

/-- What digits count for in the sum of the bytes; `high` if the first is the first of a byte. -/
def worth : Bool → Bytes → Nat
  | _, [] => 0
  | true, c :: t => 16 * digitOf c + worth false t
  | false, c :: t => digitOf c + worth true t

/-- C152 in full: of the line of a message some consecutive characters are lost, and what is left is not taken
for a message. -/
def C152_claim : Prop :=
  ∀ (a x b m rest : Bytes) (_ : x ≠ []) (_ : HexPairs (a ++ x ++ b) m) (_ : SumsToZero m) (q : Packet) (n : Nat),
    decodePacket (a ++ b ++ 0x0d :: 0x0a :: rest) true true true = .ok (some q, n) → isMessage q = false

theorem worth_pairs {t m : Bytes} (h : HexPairs t m) : worth true t = (m.map UInt8.toNat).sum := by
  induction h with
  | nil => rfl
  | cons a b x t m ha hb hx h ih => simp only [worth, List.map_cons, List.sum_cons, ih, hx]; omega

theorem worth_append : ∀ (a b : Bytes) (h : Bool), worth h (a ++ b) = worth h a + worth (if a.length % 2 = 0 then h else !h) b
  | [], b, h => by simp [worth]
  | c :: a, b, h => by
    have hp : (if (c :: a).length % 2 = 0 then h else !h) = if a.length % 2 = 0 then !h else h := by
      simp only [List.length_cons]
      by_cases ha : a.length % 2 = 0
      · rw [if_pos ha, if_neg (by omega)]
      · rw [if_neg ha, if_pos (by omega)]
    rw [hp]
    cases h with
    | true => simp only [List.cons_append, worth, worth_append a b false, Bool.not_false, Bool.not_true]; omega
    | false => simp only [List.cons_append, worth, worth_append a b true, Bool.not_false, Bool.not_true]; omega

/-- The digits before and behind an even number of lost ones. -/
theorem worth_lost (a x b : Bytes) (hx : x.length % 2 = 0) :
    worth true (a ++ x ++ b) = worth true (a ++ b) + worth (decide (a.length % 2 = 0)) x := by
  rw [worth_append (a ++ x) b, worth_append a x, worth_append a b]
  have h1 : (if (a ++ x).length % 2 = 0 then true else !true) = if a.length % 2 = 0 then true else !true := by
    rw [List.length_append]
    by_cases ha : a.length % 2 = 0
    · rw [if_pos ha, if_pos (by omega)]
    · rw [if_neg ha, if_neg (by omega)]
  rw [h1]
  have h2 : decide (a.length % 2 = 0) = if a.length % 2 = 0 then true else !true := by
    by_cases ha : a.length % 2 = 0 <;> simp [ha]
  rw [h2]
  omega

/-- Pairs of digits, if there are digits only and an even number of them. -/
theorem pairs_of_digits : ∀ (t : Bytes), (∀ c ∈ t, HexDigit c) → t.length % 2 = 0 → ∃ m, HexPairs t m
  | [], _, _ => ⟨[], .nil⟩
  | [_], _, h => by simp at h
  | a :: b :: t, hd, hl => by
    obtain ⟨m, hm⟩ := pairs_of_digits t (fun c hc => hd c (by simp [hc])) (by simp only [List.length_cons] at hl; omega)
    have ha := hd a (by simp)
    have hb := hd b (by simp)
    refine ⟨UInt8.ofNat (16 * digitOf a + digitOf b) :: m, .cons a b _ t m ha hb ?_ hm⟩
    have h1 : digitOf a < 16 ∧ digitOf b < 16 := by
      unfold HexDigit at ha hb
      unfold digitOf
      constructor <;> split <;> omega
    rw [UInt8.toNat_ofNat']
    exact Nat.mod_eq_of_lt (by omega)

/-- The line of a message is one of digits that count for nothing. -/
theorem message_line (l rest : Bytes) (hd : ∀ c ∈ l, HexDigit c) (q : Packet) (n : Nat)
    (h : decodePacket (l ++ 0x0d :: 0x0a :: rest) true true true = .ok (some q, n)) (hq : isMessage q = true) :
    ∃ m, HexPairs l m ∧ SumsToZero m := by
  obtain ⟨m, rest', h1, h2⟩ := C32_pci_only_valid _ q n h hq
  have hp : HexPairs (b16encode m) m := (b16decode_iff _ _).1 (b16decode_b16encode m)
  have cut : ∀ (t r : Bytes), (∀ c ∈ t, HexDigit c) → (t ++ 0x0d :: r).takeWhile (· ≠ 0x0d) = t := by
    intro t r ht
    rw [List.takeWhile_append_of_pos]
    · simp
    · intro c hc
      have := ht c hc
      simp only [decide_not, Bool.not_eq_true', decide_eq_false_iff_not]
      rintro rfl
      exact absurd this (by unfold HexDigit; decide)
  have h3 := congrArg (List.takeWhile (· ≠ 0x0d)) h1
  rw [cut l _ hd, cut _ _ (hexPairs_digits hp)] at h3
  exact ⟨m, h3 ▸ hp, h2⟩

/-- C152 in every other case: what is left is taken for a message only if an even number of characters is
lost, and these count for nothing in the sum of the bytes.

What is missing: this one case, in which the checksum cannot tell (`C152_missed`). -/
theorem C152_partial (a x b m rest : Bytes) (hp : HexPairs (a ++ x ++ b) m) (hm : SumsToZero m) (q : Packet) (n : Nat)
    (h : decodePacket (a ++ b ++ 0x0d :: 0x0a :: rest) true true true = .ok (some q, n)) (hq : isMessage q = true) :
    x.length % 2 = 0 ∧ worth (decide (a.length % 2 = 0)) x % 256 = 0 := by
  have hd := hexPairs_digits hp
  obtain ⟨m', h1, h2⟩ := message_line (a ++ b) rest (fun c hc => hd c (by
    simp only [List.mem_append] at hc ⊢
    rcases hc with hc | hc <;> simp [hc])) q n h hq
  have hx : x.length % 2 = 0 := by
    have l1 := pairs_length hp
    have l2 := pairs_length h1
    simp only [List.length_append] at l1 l2
    omega
  refine ⟨hx, ?_⟩
  have w1 := worth_pairs hp
  have w2 := worth_pairs h1
  rw [worth_lost a x b hx] at w1
  unfold SumsToZero at hm h2
  omega

/-- The line of a command is one of digits that count for nothing. -/
theorem command_line (l rest : Bytes) (hd : ∀ c ∈ l, HexDigit c) (conf : Option UInt8)
    (hconf : ∀ x, conf = some x → x ∈ confirmationCodes) (q : Packet) (n : Nat)
    (h : decodePacket (0x5c :: l ++ conf.toList ++ 0x0d :: rest) true true false = .ok (some q, n)) (hq : isMessage q = true) :
    ∃ m, HexPairs l m ∧ SumsToZero m := by
  have nocr : ∀ (co : Option UInt8), (∀ x, co = some x → x ∈ confirmationCodes) → (0x0d : UInt8) ∉ co.toList := by
    intro co hco g
    cases co with
    | none => simp at g
    | some x =>
      simp only [Option.toList_some, List.mem_singleton] at g
      exact absurd (g ▸ hco x rfl) (by decide)
  have nodigit : ∀ x : UInt8, x ∈ confirmationCodes → ¬ HexDigit x := by
    intro x hx
    simp only [confirmationCodes, List.mem_cons, List.not_mem_nil, or_false] at hx
    unfold HexDigit
    rcases hx with rfl | rfl | rfl | rfl | rfl | rfl | rfl | rfl | rfl | rfl | rfl | rfl | rfl | rfl | rfl | rfl | rfl | rfl |
      rfl | rfl <;> decide
  have nohex : ∀ r : Bytes, (0x0d : UInt8) ∉ b16encode r := fun r g => (hex_not_special _ (b16encode_upper r _ g)).1 rfl
  rcases C32_client_only_valid _ q n h hq with h1 | ⟨m', rest', pre, conf', h1, h2, h3, h4⟩
  · simp at h1
  · have hp' : HexPairs (b16encode m') m' := (b16decode_iff _ _).1 (b16decode_b16encode m')
    have e := before_cr (l := 0x5c :: l ++ conf.toList) h1
      (by rw [List.cons_append, List.mem_cons, List.mem_append, not_or, not_or]
          refine ⟨by decide, fun g => ?_, nocr conf hconf⟩
          exact absurd (hd _ g) (by unfold HexDigit; decide))
      (by simp only [List.mem_append, not_or]
          refine ⟨⟨?_, nohex m'⟩, nocr conf' h3⟩
          rcases h2 with rfl | rfl <;> decide)
    rcases h2 with rfl | rfl
    · have hmem : (0x5c : UInt8) ∈ [] ++ b16encode m' ++ conf'.toList := by rw [← e]; simp
      simp only [List.nil_append, List.mem_append] at hmem
      rcases hmem with g | g
      · exact absurd (b16encode_upper m' _ g) (by decide)
      · cases conf' with
        | none => simp at g
        | some x =>
          simp only [Option.toList_some, List.mem_singleton] at g
          exact absurd (g ▸ h3 x rfl) (by decide)
    · rw [List.cons_append, List.cons_append, List.nil_append, List.cons_append, List.cons.injEq] at e
      have e := e.2
      have hd' := hexPairs_digits hp'
      cases conf with
      | none =>
        cases conf' with
        | none => simp only [Option.toList_none, List.append_nil] at e; exact ⟨m', e ▸ hp', h4⟩
        | some y =>
          simp only [Option.toList_none, List.append_nil, Option.toList_some] at e
          exact absurd (hd y (by rw [e]; simp)) (nodigit y (h3 y rfl))
      | some x =>
        cases conf' with
        | none =>
          simp only [Option.toList_none, List.append_nil, Option.toList_some] at e
          exact absurd (hd' x (by rw [← e]; simp)) (nodigit x (hconf x rfl))
        | some y =>
          simp only [Option.toList_some] at e
          have := (List.append_inj' e rfl).1
          exact ⟨m', this ▸ hp', h4⟩

/-- The same as `C152_partial` for the digits of a command to the PCI. -/
theorem C152_command_partial (a x b m rest : Bytes) (hp : HexPairs (a ++ x ++ b) m) (hm : SumsToZero m) (conf : Option UInt8)
    (hconf : ∀ x, conf = some x → x ∈ confirmationCodes) (q : Packet) (n : Nat)
    (h : decodePacket (0x5c :: (a ++ b) ++ conf.toList ++ 0x0d :: rest) true true false = .ok (some q, n))
    (hq : isMessage q = true) :
    x.length % 2 = 0 ∧ worth (decide (a.length % 2 = 0)) x % 256 = 0 := by
  have hd := hexPairs_digits hp
  obtain ⟨m', h1, h2⟩ := command_line (a ++ b) rest (fun c hc => hd c (by
    simp only [List.mem_append] at hc ⊢
    rcases hc with hc | hc <;> simp [hc])) conf hconf q n h hq
  have hx : x.length % 2 = 0 := by
    have l1 := pairs_length hp
    have l2 := pairs_length h1
    simp only [List.length_append] at l1 l2
    omega
  refine ⟨hx, ?_⟩
  have w1 := worth_pairs hp
  have w2 := worth_pairs h1
  rw [worth_lost a x b hx] at w1
  unfold SumsToZero at hm h2
  omega

/-- One lost character is always noticed: the line cannot be read, or is no message. -/
theorem C152_one (a b m rest : Bytes) (c : UInt8) (hp : HexPairs (a ++ [c] ++ b) m) (hm : SumsToZero m) (q : Packet) (n : Nat)
    (h : decodePacket (a ++ b ++ 0x0d :: 0x0a :: rest) true true true = .ok (some q, n)) : isMessage q = false := by
  cases hq : isMessage q with
  | false => rfl
  | true => exact absurd (C152_partial a [c] b m rest hp hm q n h hq).1 (by simp)

/-- Two lost characters are noticed unless both are zeros. -/
theorem C152_two (a b m rest : Bytes) (c d : UInt8) (hp : HexPairs (a ++ [c, d] ++ b) m) (hm : SumsToZero m) (q : Packet) (n : Nat)
    (h : decodePacket (a ++ b ++ 0x0d :: 0x0a :: rest) true true true = .ok (some q, n)) (hq : isMessage q = true) :
    c = 0x30 ∧ d = 0x30 := by
  have hd := hexPairs_digits hp
  have hc := hd c (by simp)
  have hd := hd d (by simp)
  have hw := (C152_partial a [c, d] b m rest hp hm q n h hq).2
  have key : digitOf c = 0 ∧ digitOf d = 0 := by
    have h1 : digitOf c < 16 ∧ digitOf d < 16 := by
      unfold HexDigit at hc hd
      unfold digitOf
      constructor <;> split <;> omega
    by_cases ha : a.length % 2 = 0
    · simp only [ha, decide_true, worth] at hw
      omega
    · simp only [ha, decide_false, worth] at hw
      omega
  have zero : ∀ z : UInt8, HexDigit z → digitOf z = 0 → z = 0x30 := by
    intro z hz h0
    unfold HexDigit at hz
    unfold digitOf at h0
    apply UInt8.toNat_inj.1
    show z.toNat = 48
    split at h0 <;> omega
  exact ⟨zero c hc key.1, zero d hd key.2⟩

/-- In the one case that is left what remains passes the checksum. -/
theorem C152_missed (a x b m : Bytes) (hp : HexPairs (a ++ x ++ b) m) (hm : SumsToZero m) (hx : x.length % 2 = 0)
    (hw : worth (decide (a.length % 2 = 0)) x % 256 = 0) : ∃ m', HexPairs (a ++ b) m' ∧ SumsToZero m' := by
  have hd := hexPairs_digits hp
  obtain ⟨m', h⟩ := pairs_of_digits (a ++ b) (fun c hc => hd c (by
    simp only [List.mem_append] at hc ⊢
    rcases hc with hc | hc <;> simp [hc])) (by
      have := pairs_length hp
      simp only [List.length_append] at this ⊢
      omega)
  refine ⟨m', h, ?_⟩
  have w1 := worth_pairs hp
  have w2 := worth_pairs h
  rw [worth_lost a x b hx] at w1
  unfold SumsToZero at hm ⊢
  omega

/-- Unit 250 sets group 1 to level 0 at once and switches group 5 on. Without the level this reads: set group 1 to
level 121. -/
theorem C152_false : ¬ C152_claim := by
  intro h
  have h1 := h (ascii "05FA38000201") (ascii "00") (ascii "790548") [0x05, 0xfa, 0x38, 0x00, 0x02, 0x01, 0x00, 0x79, 0x05, 0x48] []
    (by decide +kernel) ((b16decode_iff _ _).1 (by decide +kernel)) (by decide)
    (.pm { checksum := true, prio := .class4, app := some 0x38, sals := [.lightRamp 1 0 (.int 0x79)], conf := none, src := some 0xfa })
    20 (by decide +kernel)
  exact absurd h1 (by decide)

/-- And so it is published. -/
example :
    messagesOf (Client.serialSession (Mqtt.cbusHook fun _ => ⟨⟨2020, 1, 1⟩, ⟨0, 0, 0, 0⟩⟩)
      [ascii "05FA38000201", ascii "790548\r\n"] ⟨[], { connected := true, mqttApi := true }⟩).2 =
      eventMessages (.lightingRamp (some 250) 1 0 (.int 121)) ∧
    messagesOf (Client.serialSession (Mqtt.cbusHook fun _ => ⟨⟨2020, 1, 1⟩, ⟨0, 0, 0, 0⟩⟩)
      [ascii "05FA38000201", ascii "00", ascii "790548\r\n"] ⟨[], { connected := true, mqttApi := true }⟩).2 =
      eventMessages (.lightingRamp (some 250) 1 0 (.int 0)) ++ eventMessages (.lightingOn (some 250) 5) := by
  decide +kernel

/-- The same of a command. -/
example :
    decodePacket (ascii "\\053800020100790542g\r") true true false =
      .ok (some (.pm { app := some 0x38, sals := [.lightRamp 1 0 (.int 0), .lightOn 5], conf := some 0x67 }), 21) ∧
    decodePacket (ascii "\\0538000201790542g\r") true true false =
      .ok (some (.pm { app := some 0x38, sals := [.lightRamp 1 0 (.int 0x79)], conf := some 0x67 }), 19) := by
  decide +kernel

end CBus.Props
