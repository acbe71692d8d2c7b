import Verif.Props.Losses

/-! # C162: two neighbouring characters that are changed, and one that is added -/

namespace CBus.Props
open CBus CBus.Spec

theorem digit_small {c : UInt8} (h : HexDigit c) : digitOf c < 16 := by
  unfold HexDigit at h
  unfold digitOf
  split <;> omega

theorem digit_inj {c d : UInt8} (hc : HexDigit c) (hd : HexDigit d) (h : digitOf c = digitOf d) : c = d := by
  unfold HexDigit at hc hd
  unfold digitOf at h
  apply UInt8.toNat_inj.1
  split at h <;> split at h <;> omega

/-- Two neighbouring digits make a difference to the sum of the bytes. -/
theorem worth_two (a b : Bytes) (c d c' d' : UInt8) (hc : HexDigit c) (hd : HexDigit d) (hc' : HexDigit c') (hd' : HexDigit d')
    (h : worth true (a ++ [c, d] ++ b) % 256 = worth true (a ++ [c', d'] ++ b) % 256) : c = c' ∧ d = d' := by
  rw [worth_lost a [c, d] b (by simp), worth_lost a [c', d'] b (by simp)] at h
  have h1 := digit_small hc
  have h2 := digit_small hd
  have h3 := digit_small hc'
  have h4 := digit_small hd'
  have key : digitOf c = digitOf c' ∧ digitOf d = digitOf d' := by
    by_cases ha : a.length % 2 = 0
    · simp only [ha, decide_true, worth] at h; omega
    · simp only [ha, decide_false, worth] at h; omega
  exact ⟨digit_inj hc hc' key.1, digit_inj hd hd' key.2⟩

theorem cr_no_digit : ¬ HexDigit 0x0d := by unfold HexDigit; decide

theorem lf_no_digit : ¬ HexDigit 0x0a := by unfold HexDigit; decide

/-- Digits before the first CR. -/
theorem digits_before : ∀ (a p s u : Bytes), (∀ c ∈ p, HexDigit c) → (∀ c ∈ a, HexDigit c) → p ++ 0x0d :: s = a ++ u →
    ∃ p', p = a ++ p' ∧ u = p' ++ 0x0d :: s
  | [], p, s, u, _, _, h => ⟨p, rfl, h.symm⟩
  | x :: a, [], s, u, _, ha, h => by
    simp only [List.nil_append, List.cons_append, List.cons.injEq] at h
    exact absurd (h.1 ▸ ha x (by simp)) cr_no_digit
  | x :: a, y :: p, s, u, hp, ha, h => by
    simp only [List.cons_append, List.cons.injEq] at h
    obtain ⟨p', h1, h2⟩ := digits_before a p s u (fun c hc => hp c (by simp [hc])) (fun c hc => ha c (by simp [hc])) h.2
    exact ⟨p', by simp [h.1, h1], h2⟩

theorem digits_end (b p rest rest' : Bytes) (hp : ∀ c ∈ p, HexDigit c) (hb : ∀ c ∈ b, HexDigit c)
    (h : p ++ 0x0d :: 0x0a :: rest' = b ++ 0x0d :: 0x0a :: rest) : p = b := by
  obtain ⟨p3, h1, h2⟩ := digits_before b p _ _ hp hb h
  cases p3 with
  | nil => simpa using h1
  | cons x p3 =>
    simp only [List.cons_append, List.cons.injEq] at h2
    exact absurd (h2.1 ▸ hp x (by simp [h1])) cr_no_digit

/-- The line of a message in which two neighbouring characters, or fewer, are others than before: it is no message, if
these are not the end of a line. -/
theorem C162_reports (a b m rest : Bytes) (c d c' d' : UInt8) (hp : HexPairs (a ++ [c, d] ++ b) m) (hm : SumsToZero m)
    (hne : [c', d'] ≠ [c, d]) (hcr : [c', d'] ≠ [0x0d, 0x0a]) (q : Packet) (n : Nat)
    (h : decodePacket (a ++ [c', d'] ++ b ++ 0x0d :: 0x0a :: rest) true true true = .ok (some q, n)) : isMessage q = false := by
  cases hq : isMessage q with
  | false => rfl
  | true =>
    exfalso
    obtain ⟨m', rest', h1, h2⟩ := C32_pci_only_valid _ q n h hq
    have hp' : HexPairs (b16encode m') m' := (b16decode_iff _ _).1 (b16decode_b16encode m')
    have hd := hexPairs_digits hp
    have hd' := hexPairs_digits hp'
    have hda : ∀ x ∈ a, HexDigit x := fun x hx => hd x (by simp [hx])
    have hdb : ∀ x ∈ b, HexDigit x := fun x hx => hd x (by simp [hx])
    rw [List.append_assoc, List.append_assoc] at h1
    obtain ⟨p, e1, e2⟩ := digits_before a _ _ _ hd' hda h1.symm
    cases p with
    | nil =>
      simp only [List.nil_append, List.cons_append, List.cons.injEq] at e2
      exact hcr (by rw [e2.1, e2.2.1])
    | cons x p =>
      cases p with
      | nil =>
        simp only [List.nil_append, List.cons_append, List.cons.injEq] at e2
        obtain ⟨-, -, e3⟩ := e2
        cases b with
        | nil => simp at e3
        | cons y b =>
          simp only [List.cons_append, List.cons.injEq] at e3
          exact absurd (e3.1 ▸ hdb y (by simp)) lf_no_digit
      | cons y p =>
        simp only [List.nil_append, List.cons_append, List.cons.injEq] at e2
        obtain ⟨e3, e4, e5⟩ := e2
        subst e3 e4
        have e6 := digits_end b p rest rest' (fun z hz => hd' z (by simp [e1, hz])) hdb e5.symm
        subst e6
        have e7 : HexPairs (a ++ [c', d'] ++ p) m' := by
          have : a ++ [c', d'] ++ p = b16encode m' := by simp [e1]
          rw [this]; exact hp'
        have w1 := worth_pairs hp
        have w2 := worth_pairs e7
        have hd7 := hexPairs_digits e7
        unfold SumsToZero at hm h2
        have := worth_two a p c d c' d' (hd c (by simp)) (hd d (by simp)) (hd7 c' (by simp)) (hd7 d' (by simp))
          (by omega)
        exact hne (by rw [this.1, this.2])

/-- So is a line with one character too many, whatever it is. -/
theorem C162_added (a b m rest : Bytes) (x : UInt8) (hp : HexPairs (a ++ b) m) (q : Packet) (n : Nat)
    (h : decodePacket (a ++ x :: b ++ 0x0d :: 0x0a :: rest) true true true = .ok (some q, n)) : isMessage q = false := by
  cases hq : isMessage q with
  | false => rfl
  | true =>
    exfalso
    obtain ⟨m', rest', h1, h2⟩ := C32_pci_only_valid _ q n h hq
    have hp' : HexPairs (b16encode m') m' := (b16decode_iff _ _).1 (b16decode_b16encode m')
    have hd := hexPairs_digits hp
    have hd' := hexPairs_digits hp'
    have hda : ∀ x ∈ a, HexDigit x := fun x hx => hd x (by simp [hx])
    have hdb : ∀ x ∈ b, HexDigit x := fun x hx => hd x (by simp [hx])
    rw [List.append_assoc] at h1
    obtain ⟨p, e1, e2⟩ := digits_before a _ _ _ hd' hda h1.symm
    cases p with
    | nil =>
      simp only [List.nil_append, List.cons_append, List.cons.injEq] at e2
      cases b with
      | nil => simp at e2
      | cons y b =>
        simp only [List.cons_append, List.cons.injEq] at e2
        exact absurd (e2.2.1 ▸ hdb y (by simp)) lf_no_digit
    | cons z p =>
      simp only [List.cons_append, List.cons.injEq] at e2
      have e6 := digits_end b p rest rest' (fun z hz => hd' z (by simp [e1, hz])) hdb e2.2.symm
      have l1 := pairs_length hp
      have l2 := pairs_length hp'
      rw [e1, e6] at l2
      simp only [List.length_append, List.length_cons] at l1 l2
      omega

/-- The same for the digits of a command to the PCI. -/
theorem C162_commands (a b m rest : Bytes) (c d c' d' : UInt8) (hp : HexPairs (a ++ [c, d] ++ b) m) (hm : SumsToZero m)
    (hne : [c', d'] ≠ [c, d]) (hc : c' ≠ 0x0d) (hd : d' ≠ 0x0d) (conf : Option UInt8)
    (hconf : ∀ x, conf = some x → x ∈ confirmationCodes) (q : Packet) (n : Nat)
    (h : decodePacket (0x5c :: (a ++ [c', d'] ++ b) ++ conf.toList ++ 0x0d :: rest) true true false = .ok (some q, n)) :
    isMessage q = false := by
  cases hq : isMessage q with
  | false => rfl
  | true =>
    exfalso
    have hdig := hexPairs_digits hp
    have nocr : ∀ (co : Option UInt8), (∀ x, co = some x → x ∈ confirmationCodes) → (0x0d : UInt8) ∉ co.toList := by
      intro co hco g
      cases co with
      | none => simp at g
      | some x =>
        simp only [Option.toList_some, List.mem_singleton] at g
        exact absurd (g ▸ hco x rfl) (by decide)
    have nohex : ∀ r : Bytes, (0x0d : UInt8) ∉ b16encode r := fun r g => (hex_not_special _ (b16encode_upper r _ g)).1 rfl
    have noline : (0x0d : UInt8) ∉ a ++ [c', d'] ++ b := by
      intro g
      simp only [List.append_assoc, List.mem_append, List.mem_cons, List.not_mem_nil, or_false] at g
      rcases g with g | (g | g) | g
      · exact cr_no_digit (hdig _ (by simp [g]))
      · exact hc g.symm
      · exact hd g.symm
      · exact cr_no_digit (hdig _ (by simp [g]))
    rcases C32_client_only_valid _ q n h hq with h1 | ⟨m', rest', pre, conf', h1, h2, h3, h4⟩
    · simp at h1
    · have e := before_cr (l := 0x5c :: (a ++ [c', d'] ++ b) ++ conf.toList) h1
        (by rw [List.cons_append, List.mem_cons, List.mem_append, not_or, not_or]
            exact ⟨by decide, noline, nocr conf hconf⟩)
        (by simp only [List.mem_append, not_or]
            refine ⟨⟨?_, nohex m'⟩, nocr conf' h3⟩
            rcases h2 with rfl | rfl <;> decide)
      have l1 := pairs_length hp
      rcases h2 with rfl | rfl
      · have hmem : (0x5c : UInt8) ∈ [] ++ b16encode m' ++ conf'.toList := by rw [← e]; simp
        simp only [List.nil_append, List.mem_append] at hmem
        rcases hmem with g | g
        · exact absurd (b16encode_upper m' _ g) (by decide)
        · cases conf' with
          | none => simp at g
          | some x =>
            simp only [Option.toList_some, List.mem_singleton] at g
            exact absurd (g ▸ h3 x rfl) (by decide)
      · rw [List.cons_append, List.cons_append, List.nil_append, List.cons_append, List.cons.injEq] at e
        have el := congrArg List.length e.2
        simp only [List.length_append, List.length_cons, List.length_nil, b16encode_length] at el l1
        have c1 : conf.toList.length ≤ 1 := by cases conf <;> simp
        have c2 : conf'.toList.length ≤ 1 := by cases conf' <;> simp
        have e2 := (List.append_inj e.2 (by
          simp only [List.length_append, List.length_cons, List.length_nil, b16encode_length]; omega)).1
        have e7 : HexPairs (a ++ [c', d'] ++ b) m' := by
          rw [e2]; exact (b16decode_iff _ _).1 (b16decode_b16encode m')
        have w1 := worth_pairs hp
        have w2 := worth_pairs e7
        have hd7 := hexPairs_digits e7
        unfold SumsToZero at hm h4
        have := worth_two a b c d c' d' (hdig c (by simp)) (hdig d (by simp)) (hd7 c' (by simp)) (hd7 d' (by simp))
          (by omega)
        exact hne (by rw [this.1, this.2])

/-- Why two, and not the end of a line: three characters (of which the outer two are changed) can make another
message, and so can an end of a line in the middle. -/
theorem C162_limits :
    (∃ (a b m rest : Bytes) (c d e c' e' : UInt8) (q : Packet) (n : Nat), HexPairs (a ++ [c, d, e] ++ b) m ∧ SumsToZero m ∧
      [c', d, e'] ≠ [c, d, e] ∧
      decodePacket (a ++ [c', d, e'] ++ b ++ 0x0d :: 0x0a :: rest) true true true = .ok (some q, n) ∧ isMessage q = true) ∧
    (∃ (a b m rest : Bytes) (c d : UInt8) (q : Packet) (n : Nat), HexPairs (a ++ [c, d] ++ b) m ∧ SumsToZero m ∧
      decodePacket (a ++ [0x0d, 0x0a] ++ b ++ 0x0d :: 0x0a :: rest) true true true = .ok (some q, n) ∧ isMessage q = true) := by
  constructor
  · -- group 1 is switched on, and group 2 instead
    exact ⟨ascii "05FA3800790", [], [0x05, 0xfa, 0x38, 0x00, 0x79, 0x01, 0x4f], [], 0x31, 0x34, 0x46, 0x32, 0x45,
      .pm { app := some 0x38, sals := [.lightOn 2], src := some 0xfa }, 16,
      (b16decode_iff _ _).1 (by decide +kernel), by decide, by decide, by decide +kernel, by decide⟩
  · -- groups 1 and 2 are switched on, and only group 1
    exact ⟨ascii "05D03800790179", ascii "FE", [0x05, 0xd0, 0x38, 0x00, 0x79, 0x01, 0x79, 0x02, 0xfe], [], 0x30, 0x32,
      .pm { app := some 0x38, sals := [.lightOn 1], src := some 0xd0 }, 16,
      (b16decode_iff _ _).1 (by decide +kernel), by decide, by decide +kernel, by decide⟩

/-- Two characters that are exchanged, and two that are others, in the report that group 1 is switched on. -/
example : HexPairs (ascii "05FA380079" ++ [0x30, 0x31] ++ ascii "4F") [0x05, 0xfa, 0x38, 0x00, 0x79, 0x01, 0x4f] ∧
    SumsToZero [0x05, 0xfa, 0x38, 0x00, 0x79, 0x01, 0x4f] ∧
    decodePacket (ascii "05FA380079014F\r\n") true true true =
      .ok (some (.pm { app := some 0x38, sals := [.lightOn 1], src := some 0xfa }), 16) ∧
    decodePacket (ascii "05FA380079104F\r\n") true true true =
      .ok (some (.invalid [0x05, 0xfa, 0x38, 0x00, 0x79, 0x10, 0x4f] .valueError), 16) ∧
    decodePacket (ascii "05FA3800F9014F\r\n") true true true =
      .ok (some (.invalid [0x05, 0xfa, 0x38, 0x00, 0xf9, 0x01, 0x4f] .valueError), 16) ∧
    decodePacket (ascii "\\0538007910490\r") true true false = .error .binasciiError := by
  refine ⟨(b16decode_iff _ _).1 (by decide +kernel), ?_⟩
  decide +kernel

end CBus.Props
