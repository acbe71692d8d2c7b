import Verif.Props.Struck
import Verif.Props.Lines

/-! # C175: a damaged command costs only itself -/

namespace CBus.Props
open CBus CBus.Spec

/-- A command with its checksum, without the CR: a backslash, pairs of digits whose octets sum to nothing, and a
confirmation code. -/
def CheckedCommand (t : Bytes) : Prop :=
  ∃ d m code, HexPairs d m ∧ SumsToZero m ∧ code ∈ confirmationCodes ∧ t = 0x5c :: d ++ [code]

/-- C175 in full: to a simulated PCI with checksums on, a command of which one character before the CR is changed is
as if it had not come, but for its echo in basic mode. -/
def C175_claim : Prop :=
  ∀ (rand : Nat → Int) (s : Server) (_ : s.connected = true) (_ : s.checksum = true) (a b : Bytes) (c c' : UInt8)
    (_ : CheckedCommand (a ++ c :: b)) (_ : c' ≠ c) (rest : Bytes),
    ∃ r, processBuffer (Server.handle rand) rest s = r ∧
      processBuffer (Server.handle rand) (a ++ c' :: b ++ 0x0d :: rest) s =
        (r.1, (if s.basic then [.echo (a ++ c' :: b ++ [0x0d])] else []) ++ r.2.1, r.2.2)

/-- C175 for one of the digits, changed to anything but a CR or `?`. Missing from the full claim: those two, which
split the line, and the backslash and the confirmation code; see `C175_code_partial`, `C175_backslash_partial` and
`C175_lost`. -/
theorem C175_partial (rand : Nat → Int) (s : Server) (hcon : s.connected = true) (hcs : s.checksum = true)
    (a b : Bytes) (c c' code : UInt8) (m : Bytes) (hp : HexPairs (a ++ c :: b) m) (hs : SumsToZero m)
    (hcode : code ∈ confirmationCodes) (hne : c' ≠ c) (hcr : c' ≠ 0x0d) (hq : c' ≠ 0x3f) (rest : Bytes) :
    ∃ r, processBuffer (Server.handle rand) rest s = r ∧
      processBuffer (Server.handle rand) (0x5c :: a ++ c' :: b ++ [code, 0x0d] ++ rest) s =
        (r.1, (if s.basic then [.echo (0x5c :: a ++ c' :: b ++ [code, 0x0d])] else []) ++ r.2.1, r.2.2) := by
  refine ⟨_, rfl, ?_⟩
  have hd := hexPairs_digits hp
  have hno : ∀ y, ¬ HexDigit y → c' ≠ y → y ∉ a ++ c' :: b := by
    intro y hy hy' hm
    simp only [List.mem_append, List.mem_cons] at hm
    rcases hm with hm | rfl | hm
    · exact hy (hd y (by simp [hm]))
    · exact hy' rfl
    · exact hy (hd y (by simp [hm]))
  have h := C42_server_partial rand (a ++ c' :: b) rest (some code) s (by rintro _ ⟨⟩; exact hcode)
    (changed_malformed hp hs hne) (hno 0x0d (by unfold HexDigit; decide) hcr) (hno 0x3f (by unfold HexDigit; decide) hq)
    (by rintro ⟨⟩) hcs hcon
  simpa using h

/-- C175 for the confirmation code, changed to anything but another one, a digit, a CR or `?`. -/
theorem C175_code_partial (rand : Nat → Int) (s : Server) (hcon : s.connected = true)
    (d m : Bytes) (c' : UInt8) (hp : HexPairs d m) (hne : c' ∉ confirmationCodes) (hx : ¬ HexDigit c')
    (hcr : c' ≠ 0x0d) (hq : c' ≠ 0x3f) (rest : Bytes) :
    ∃ r, processBuffer (Server.handle rand) rest s = r ∧
      processBuffer (Server.handle rand) (0x5c :: d ++ [c', 0x0d] ++ rest) s =
        (r.1, (if s.basic then [.echo (0x5c :: d ++ [c', 0x0d])] else []) ++ r.2.1, r.2.2) := by
  refine ⟨_, rfl, ?_⟩
  have hd := hexPairs_digits hp
  have hl : ClientLine (0x5c :: d ++ [c']) := by
    refine ⟨?_, ?_, by simp, ?_, by simp, by simp⟩
    · intro h
      simp only [List.cons_append, List.mem_cons, List.mem_append, List.not_mem_nil, or_false] at h
      rcases h with h | h | h
      · revert h; decide
      · exact (hex_not_special _ (hd _ h)).1 rfl
      · exact hcr h.symm
    · intro h
      simp only [List.cons_append, List.mem_cons, List.mem_append, List.not_mem_nil, or_false] at h
      rcases h with h | h | h
      · revert h; decide
      · exact (hex_not_special _ (hd _ h)).2.2.1 rfl
      · exact hq h.symm
    · rintro ⟨t, ht⟩
      simp only [List.cons_append, List.cons.injEq] at ht
      exact absurd ht.1 (by decide)
  have hdec : decodePacket ((0x5c :: d ++ [c']) ++ [0x0d]) s.checksum true false =
      .ok (some (.invalid (d ++ [c']) .valueError), (0x5c :: d ++ [c']).length + 1) := by
    rw [decodePacket_client_line hl]
    simp only [List.cons_append, decodeLine, Bool.false_eq_true, if_false]
    rw [if_neg (by decide), if_pos trivial]
    unfold decodeConf
    simp only [List.getLast?_concat]
    rw [if_neg (by rw [isHex_iff]; exact hx), if_pos ⟨hne, trivial⟩]
  have h := (C42_server_skips rand _ hl s hcon _ _ _ hdec rest).2
  simpa using h

/-- C175 for the backslash, changed to anything but `@`, `~`, a digit, a CR or `?`. -/
theorem C175_backslash_partial (rand : Nat → Int) (s : Server) (hcon : s.connected = true)
    (d m : Bytes) (c' code : UInt8) (hp : HexPairs d m) (hcode : code ∈ confirmationCodes) (hne : c' ≠ 0x5c) (hat : c' ≠ 0x40)
    (hr : c' ≠ 0x7e) (hx : ¬ HexDigit c') (hcr : c' ≠ 0x0d) (hq : c' ≠ 0x3f) (rest : Bytes) :
    ∃ r, processBuffer (Server.handle rand) rest s = r ∧
      processBuffer (Server.handle rand) (c' :: d ++ [code, 0x0d] ++ rest) s =
        (r.1, (if s.basic then [.echo (c' :: d ++ [code, 0x0d])] else []) ++ r.2.1, r.2.2) := by
  refine ⟨_, rfl, ?_⟩
  have hd := hexPairs_digits hp
  obtain ⟨k1, k2, k3, -⟩ := conf_not_special code hcode
  have hno : ∀ y, ¬ HexDigit y → c' ≠ y → code ≠ y → y ∉ c' :: d ++ [code] := by
    intro y hy h1 h2 h
    simp only [List.cons_append, List.mem_cons, List.mem_append, List.not_mem_nil, or_false] at h
    rcases h with h | h | h
    · exact h1 h.symm
    · exact hy (hd _ h)
    · exact h2 h.symm
  have hu : (0x75 : UInt8) ∉ d := fun h => by
    have := hd _ h
    revert this; unfold HexDigit; decide
  have hl : ClientLine (c' :: d ++ [code]) := by
    refine ⟨hno _ (by unfold HexDigit; decide) hcr k2, hno _ (by unfold HexDigit; decide) hq k3, by simpa using hr, ?_, ?_, ?_⟩
    · rintro ⟨t, ht⟩
      cases d with
      | nil => simp at ht
      | cons y d =>
        simp only [List.cons_append, List.nil_append, List.cons.injEq] at ht
        exact hu (by simp [← ht.2.1])
    · simp
    · intro h
      cases d with
      | cons y d => simp at h
      | nil =>
        simp only [List.cons_append, List.nil_append, List.cons.injEq, and_true] at h
        rw [h.2] at hcode
        revert hcode; decide
  have hdec : decodePacket ((c' :: d ++ [code]) ++ [0x0d]) s.checksum true false =
      .ok (some (.invalid (c' :: d) .valueError), (c' :: d ++ [code]).length + 1) := by
    rw [decodePacket_client_line hl]
    simp only [List.cons_append, decodeLine, Bool.false_eq_true, if_false]
    rw [if_neg hat, if_neg hne, ← List.cons_append]
    unfold decodeConf
    simp only [List.getLast?_concat, List.dropLast_concat]
    rw [if_neg (by simp [k1]), if_neg (by simp [hcode])]
    unfold decodeHex
    rw [if_neg]
    intro ha
    exact hx ((all_isHex_iff _).1 ha c' (by simp))
  have h := (C42_server_skips rand _ hl s hcon _ _ _ hdec rest).2
  simpa using h

/-- A command to switch a light on. -/
theorem lamp_command : HexPairs (ascii "053800790149") [5, 0x38, 0, 0x79, 1, 0x49] ∧ SumsToZero [5, 0x38, 0, 0x79, 1, 0x49] ∧
    (0x68 : UInt8) ∈ confirmationCodes := by
  refine ⟨?_, by unfold SumsToZero; decide, by decide⟩
  have h : b16encode [5, 0x38, 0, 0x79, 1, 0x49] = ascii "053800790149" := by decide +kernel
  rw [← h]
  exact (b16decode_iff _ _).1 (b16decode_b16encode _)

/-- What is left out does happen. With another confirmation code the command is carried out and the other code
confirmed. With `~` for the backslash it resets the interface. With `?` or a CR for a digit, or a digit for the
code or the backslash, what is left of it is unreadable, and the next command is not carried out. -/
theorem C175_lost :
    ∃ s : Server, s.connected = true ∧ s.checksum = true ∧ s.basic = false ∧
      CheckedCommand (ascii "\\053800790149h") ∧
      (∃ run : Bytes → Conn Server × List SEff × Py Unit, run = (processBuffer (Server.handle fun _ => 1) · s) ∧
        (run (ascii "\\053800790149h\r")).2 = ([.event (.lightingOn 1), .write (ascii "h.")], .ok ()) ∧
        (run (ascii "\\053800790149i\r")).2 = ([.event (.lightingOn 1), .write (ascii "i.")], .ok ()) ∧
        (run (ascii "~053800790149h\r")).2 = ([.event .reset, .echo (ascii "053800790149h\r")], .ok ()) ∧
        (∀ t ∈ [ascii "\\05?800790149h\r", ascii "\\053\r00790149h\r", ascii "\\0538007901490\r",
            ascii "0053800790149h\r"],
          (run (t ++ ascii "\\053800790149h\r")).2 = ([], .error .binasciiError))) := by
  refine ⟨{ connected := true, checksum := true, basic := false }, rfl, rfl, rfl, ?_, _, rfl, ?_⟩
  · obtain ⟨h1, h2, h3⟩ := lamp_command
    exact ⟨_, _, _, h1, h2, h3, by decide +kernel⟩
  · decide +kernel

theorem C175_false : ¬ C175_claim := by
  intro h
  obtain ⟨h1, h2, h3⟩ := lamp_command
  obtain ⟨r, hr, h4⟩ := h (fun _ => 1) { connected := true, checksum := true, basic := false } rfl rfl
    (ascii "\\053800790149") [] 0x68 0x69 ⟨_, _, _, h1, h2, h3, by decide +kernel⟩ (by decide) []
  subst hr
  have := congrArg (fun x => x.2.1) h4
  revert this
  decide +kernel

/-- A digit changed to another, or to a letter, or the code to a `!`, or the backslash to a letter; then the command again. -/
example :
    ∀ t ∈ [ascii "\\053800790249h\r", ascii "\\0538x0790149h\r", ascii "\\053800790149!\r",
        ascii "n053800790149h\r"],
      (processBuffer (Server.handle fun _ => 1) (t ++ ascii "\\053800790149h\r")
        { connected := true, checksum := true, basic := false }).2 =
        ([.event (.lightingOn 1), .write (ascii "h.")], .ok ()) := by
  decide +kernel

end CBus.Props
