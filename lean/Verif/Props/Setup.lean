import Verif.Props.Misheard
import Verif.Props.EndToEnd

/-! # C178: a set-up that does not get through -/

namespace CBus.Props
open CBus CBus.Spec

/-- What becomes of a line: it arrives whole, or one character is changed that is neither the first nor one of the last two, to
anything but a CR or `?`, and to no digit unless `digits`; or it is lost. -/
inductive Pass (digits : Bool) : Bytes → Bool → Bytes → Prop
  | whole (w : Bytes) : Pass digits w true w
  | changed (a b : Bytes) (x c c' code cr : UInt8) (hne : c' ≠ c) (hcr : c' ≠ 0x0d) (hq : c' ≠ 0x3f)
      (hd : digits = true ∨ ¬ HexDigit c') : Pass digits (x :: a ++ c :: b ++ [code, cr]) false (x :: a ++ c' :: b ++ [code, cr])
  | lost (w : Bytes) : Pass digits w false []

/-- The set-up arrives at a simulated PCI, any of it damaged or lost, but for one reset. -/
structure Arrival (digits : Bool) (t : Server) (c1 c2 c3 : UInt8) (d1 d2 d3 : Bool) (chunks : List Bytes) : Prop where
  connected : t.connected = true
  queue : Server.QueueLines t
  codes : c1 ∈ confirmationCodes ∧ c2 ∈ confirmationCodes ∧ c3 ∈ confirmationCodes
  pieces : ∀ d ∈ chunks, d.length ≤ 209
  passes : ∃ r1 r2 r3 l1 l2 l3 l4 l5 l6, (r1 = true ∨ r2 = true ∨ r3 = true) ∧
    Pass digits (ascii "~\r") r1 l1 ∧ Pass digits (ascii "~\r") r2 l2 ∧ Pass digits (ascii "~\r") r3 l3 ∧
    Pass digits (ascii "A3210038" ++ [c1, 0x0d]) d1 l4 ∧ Pass digits (ascii "A342000E" ++ [c2, 0x0d]) d2 l5 ∧
    Pass digits (ascii "A3300059" ++ [c3, 0x0d]) d3 l6 ∧ chunks.flatten = l1 ++ (l2 ++ (l3 ++ (l4 ++ (l5 ++ l6))))

/-- C178 in full: if the last command of the set-up is confirmed, the interface is set up. -/
def C178_claim : Prop :=
  ∀ (rand : Nat → Int) (t : Server) (c1 c2 c3 : UInt8) (d1 d2 d3 : Bool) (chunks : List Bytes)
    (_ : Arrival true t c1 c2 c3 d1 d2 d3 chunks) (_ : c1 ≠ c3) (_ : c2 ≠ c3),
    ∃ r, feed maxBufferSize (Server.handle rand) chunks ⟨[], t⟩ = r ∧
      ([c3, 0x2e] ∈ confirmationsOf r.2.1 → optionsOf r.1.st = optionsFor 0x59)

theorem pass_reset {digits : Bool} {r : Bool} {l : Bytes} (h : Pass digits (ascii "~\r") r l) :
    (r = true ∧ l = ascii "~\r") ∨ (r = false ∧ l = []) := by
  generalize hw : ascii "~\r" = w at h
  cases h with
  | whole => exact .inl ⟨rfl, rfl⟩
  | lost => exact .inr ⟨rfl, rfl⟩
  | changed a b x c c' code cr hne hcr hq hd =>
    have := congrArg List.length hw
    have e : (ascii "~\r").length = 2 := by decide
    rw [e] at this
    simp only [List.length_append, List.length_cons, List.length_nil] at this
    omega

/-- A reset that may be lost. -/
theorem run_reset_maybe (rand : Nat → Int) {digits : Bool} {r : Bool} {l : Bytes} (h : Pass digits (ascii "~\r") r l) (s : Server)
    (hc : s.connected = true) :
    ∃ o, Run (Server.handle rand) ServerG 47 s l o (if r then resetState s else s) ∧ confirmationsOf o = [] := by
  rcases pass_reset h with ⟨rfl, rfl⟩ | ⟨rfl, rfl⟩
  · obtain ⟨o, h1, -, h3, -⟩ := run_reset rand s hc
    exact ⟨o, h1, h3⟩
  · exact ⟨[], .nil s, rfl⟩

/-- A set-up command with another character for a digit is passed over. -/
theorem run_garbled (rand : Nat → Int) (s : Server) (hc : s.connected = true) (y : UInt8) (hy : HexDigit y) (w : Bytes)
    (hw : ∀ x ∈ w, HexDigit x) (hw8 : w.length ≤ 40) (code : UInt8) (hcode : code ∈ confirmationCodes) (l : Bytes)
    (h : Pass false (y :: w ++ [code, 0x0d]) false l) :
    ∃ o, Run (Server.handle rand) ServerG 47 s l o s ∧ confirmationsOf o = [] := by
  generalize hv : y :: w ++ [code, 0x0d] = v at h
  cases h with
  | lost => exact ⟨[], .nil s, rfl⟩
  | changed a b x c c' code' cr hne hcr hq hd =>
    have hd : ¬ HexDigit c' := hd.resolve_left (by decide)
    have e1 : [y] ++ w ++ [code, 0x0d] = [x] ++ (a ++ c :: b) ++ [code', cr] := by simpa using hv
    obtain ⟨e2, e3⟩ := List.append_inj' e1 rfl
    obtain ⟨e4, e5⟩ := List.append_inj e2 rfl
    simp only [List.cons.injEq, and_true] at e3 e4
    obtain ⟨rfl, rfl⟩ := e3
    subst e4
    subst e5
    obtain ⟨k1, k2, k3, -⟩ := conf_not_special code hcode
    obtain ⟨y1, -, y3, -, -, -, y7, y8, y9, y10, y11⟩ := hex_not_special y hy
    have hno : ∀ z, ¬ HexDigit z → c' ≠ z → code ≠ z → z ∉ y :: (a ++ c' :: b) ++ [code] := by
      intro z hz h1 h2 h
      simp only [List.cons_append, List.mem_cons, List.mem_append, List.not_mem_nil, or_false] at h
      rcases h with h | (h | h | h) | h
      · exact hz (h ▸ hy)
      · exact hz (hw _ (by simp [h]))
      · exact h1 h.symm
      · exact hz (hw _ (by simp [h]))
      · exact h2 h.symm
    have hl : ClientLine (y :: (a ++ c' :: b) ++ [code]) := by
      refine ⟨hno _ (by unfold HexDigit; decide) hcr k2, hno _ (by unfold HexDigit; decide) hq k3, by simpa using y7, ?_, ?_, ?_⟩
      · rintro ⟨t, ht⟩
        simp only [List.cons_append, List.cons.injEq] at ht
        exact y8 ht.1.symm
      · simp [y9]
      · simp [y9]
    have hdec : ∀ rest, decodePacket (y :: (a ++ c' :: b) ++ [code, 0x0d] ++ rest) s.checksum true false =
        .ok (some (.invalid (y :: (a ++ c' :: b)) .valueError), (y :: (a ++ c' :: b) ++ [code, 0x0d]).length) := by
      intro rest
      have h1 : y :: (a ++ c' :: b) ++ [code, 0x0d] ++ rest = (y :: (a ++ c' :: b) ++ [code]) ++ 0x0d :: rest := by simp
      have h2 : (y :: (a ++ c' :: b) ++ [code, 0x0d]).length = (y :: (a ++ c' :: b) ++ [code]).length + 1 := by
        simp only [List.length_append, List.length_cons, List.length_nil]
      rw [h1, h2, decodePacket_client_line hl, List.cons_append]
      simp only [decodeLine, Bool.false_eq_true, if_false]
      rw [if_neg y10, if_neg y11, ← List.cons_append]
      unfold decodeConf
      simp only [List.getLast?_concat, List.dropLast_concat]
      rw [if_neg (by simp [k1]), if_neg (by simp [hcode])]
      unfold decodeHex
      rw [if_neg]
      intro ha
      exact hd ((all_isHex_iff _).1 ha c' (by simp))
    have hrun := server_line rand (y :: (a ++ c' :: b) ++ [code, 0x0d]) (some (.invalid (y :: (a ++ c' :: b)) .valueError)) s s [] 47 (by simp)
      (by simp only [List.length_append, List.length_cons, List.length_nil] at hw8 ⊢; omega) (by simp) hdec hc
      (by simp [actOn, Server.onPacket, pure])
    refine ⟨_, by simpa using hrun, ?_⟩
    cases s.basic <;> rfl

theorem digits_dm : ∀ w ∈ [ascii "3210038", ascii "342000E", ascii "3300059"], ∀ x ∈ w, IsUpperHex x := by decide +kernel

/-- A set-up command that the interface confirms and does no more about. -/
theorem run_config (rand : Nat → Int) (s : Server) (hc : s.connected = true) (hq : Server.QueueLines s) (hcs : s.checksum = false)
    (param value : Int) (hp : IsByte param) (hv : IsByte value)
    (hdm : ∀ conf, ∀ s, Server.onDM { checksum := false, parameter := param, value := value, conf := conf } s = (s, [], .ok true))
    (w : Bytes) (hw : (Packet.dm { checksum := false, parameter := param, value := value }).encodePacket = .ok (0x41 :: w))
    (hwd : ∀ x ∈ w, IsUpperHex x) (hw8 : w.length = 7) (c : UInt8)
    (hcode : c ∈ confirmationCodes) (d : Bool) (l : Bytes) (h : Pass false (0x41 :: w ++ [c, 0x0d]) d l) :
    ∃ o s', Run (Server.handle rand) ServerG 47 s l o s' ∧ Kept s s' ∧ confirmationsOf o = if d then [[c, 0x2e]] else [] := by
  cases d with
  | false =>
    obtain ⟨o, h1, h2⟩ := run_garbled rand s hc 0x41 (by unfold HexDigit; decide) w hwd (by omega) c hcode l h
    exact ⟨o, s, h1, Kept.refl hc hq, h2⟩
  | true =>
    have hl : l = 0x41 :: w ++ [c, 0x0d] := by
      generalize 0x41 :: w ++ [c, 0x0d] = v at h
      cases h
      rfl
    subst hl
    obtain ⟨o, h1, -, h3, -⟩ := run_dm rand s hc hq hcs param value hp hv c hcode s (fun conf => hdm conf s) hc rfl (0x41 :: w) hw
      (by simp [hw8])
    exact ⟨o, _, h1, ⟨hc, by simp [Server.QueueLines], rfl, rfl, rfl, rfl, rfl⟩, h3⟩

/-- C178 for loss and for characters that are no digits any more: whatever gets through is confirmed, and the interface is set up
if the last command does, and otherwise as after a reset. Missing from the full claim: digits that become other digits, see
`C178_false` and `C178_misled`. -/
theorem C178_partial (rand : Nat → Int) (t : Server) (c1 c2 c3 : UInt8) (d1 d2 d3 : Bool) (chunks : List Bytes)
    (h : Arrival false t c1 c2 c3 d1 d2 d3 chunks) :
    ∃ o t', feed maxBufferSize (Server.handle rand) chunks ⟨[], t⟩ = (⟨[], t'⟩, o, .ok ()) ∧
      confirmationsOf o = (if d1 then [[c1, 0x2e]] else []) ++ (if d2 then [[c2, 0x2e]] else []) ++ (if d3 then [[c3, 0x2e]] else []) ∧
      optionsOf t' = if d3 then optionsFor 0x59 else optionsFor 0 := by
  obtain ⟨hc, hq, ⟨k1, k2, k3⟩, hp, r1, r2, r3, l1, l2, l3, l4, l5, l6, hr, p1, p2, p3, p4, p5, p6, hfl⟩ := h
  obtain ⟨o1, s1, f1⟩ := run_reset_maybe rand p1 t hc
  obtain ⟨o2, s2, f2⟩ := run_reset_maybe rand p2 (if r1 then resetState t else t) (by cases r1 <;> exact hc)
  obtain ⟨o3, s3, f3⟩ := run_reset_maybe rand p3 (if r2 then resetState (if r1 then resetState t else t) else (if r1 then resetState t else t))
    (by cases r1 <;> cases r2 <;> exact hc)
  have hs : (if r3 then resetState (if r2 then resetState (if r1 then resetState t else t) else (if r1 then resetState t else t))
      else (if r2 then resetState (if r1 then resetState t else t) else (if r1 then resetState t else t))) = resetState t := by
    cases r1 <;> cases r2 <;> cases r3 <;> first | rfl | simp at hr
  rw [hs] at s3
  have a1 : ascii "A3210038" = 0x41 :: ascii "3210038" := by decide
  have a2 : ascii "A342000E" = 0x41 :: ascii "342000E" := by decide
  have a3 : ascii "A3300059" = 0x41 :: ascii "3300059" := by decide
  rw [a1] at p4
  rw [a2] at p5
  rw [a3] at p6
  obtain ⟨o4, t4, s4, q4, f4⟩ := run_config rand (resetState t) hc hq rfl 0x21 0x38 (by decide) (by decide) (fun _ _ => rfl)
    (ascii "3210038") (by decide +kernel) (digits_dm _ (by simp)) (by decide) c1 k1 d1 l4 p4
  obtain ⟨o5, t5, s5, q5, f5⟩ := run_config rand t4 q4.1 q4.2.1 (q4.2.2.2.1.trans rfl) 0x42 0x0e (by decide) (by decide) (fun _ _ => rfl)
    (ascii "342000E") (by decide +kernel) (digits_dm _ (by simp)) (by decide) c2 k2 d2 l5 p5
  have q := q4.trans q5
  have h6 : ∃ o6 t6, Run (Server.handle rand) ServerG 47 t5 l6 o6 t6 ∧ confirmationsOf o6 = (if d3 then [[c3, 0x2e]] else []) ∧
      optionsOf t6 = if d3 then optionsFor 0x59 else optionsFor 0 := by
    cases d3 with
    | false =>
      obtain ⟨o, e1, e2⟩ := run_garbled rand t5 q.1 0x41 (by unfold HexDigit; decide) _ (digits_dm (ascii "3300059") (by simp))
        (by decide) c3 k3 l6 p6
      refine ⟨o, t5, e1, e2, ?_⟩
      obtain ⟨-, -, b1, b2, b3, b4, b5⟩ := q
      simp only [optionsOf, b1, b2, b3, b4, b5]
      rfl
    | true =>
      have hl : l6 = ascii "A3300059" ++ [c3, 0x0d] := by
        rw [a3]
        generalize 0x41 :: ascii "3300059" ++ [c3, 0x0d] = v at p6
        cases p6
        rfl
      subst hl
      obtain ⟨o, e1, -, e3, -⟩ := run_dm rand t5 q.1 q.2.1 (q.2.2.2.1.trans rfl) 0x30 0x59 (by decide) (by decide)
        c3 k3 { t5 with connect := true, checksum := true, basic := false, monitor := false, idmon := true }
        (by
          intro conf
          unfold Server.onDM
          rw [if_neg (by simp), if_pos (by simp)]
          have hv : lowByte 0x59 = 0x59 := by decide
          simp only [hv]
          rfl) q.1 rfl (ascii "A3300059") (by decide +kernel) (by decide)
      exact ⟨o, _, e1, e3, rfl⟩
  obtain ⟨o6, t6, s6, f6, e6⟩ := h6
  have hrun := s1.append (s2.append (s3.append (s4.append (s5.append s6))))
  rw [← hfl] at hrun
  have hf := Run.fits (serverChunkable rand) (by decide) maxBufferSize (by decide) chunks _ hrun hp
  refine ⟨_, t6, Run.feed (serverChunkable rand) (by decide) maxBufferSize chunks _ hrun hf, ?_, e6⟩
  simp only [confirmationsOf_append, f1, f2, f3, f4, f5, f6, List.nil_append, List.append_assoc]

/-- C178: so that the interface is set up exactly if the last command is confirmed. -/
theorem C178_confirmed_partial (rand : Nat → Int) (t : Server) (c1 c2 c3 : UInt8) (d1 d2 d3 : Bool) (chunks : List Bytes)
    (h : Arrival false t c1 c2 c3 d1 d2 d3 chunks) (h1 : c1 ≠ c3) (h2 : c2 ≠ c3) :
    ∃ r, feed maxBufferSize (Server.handle rand) chunks ⟨[], t⟩ = r ∧
      ([c3, 0x2e] ∈ confirmationsOf r.2.1 ↔ optionsOf r.1.st = optionsFor 0x59) := by
  obtain ⟨o, t', e1, e2, e3⟩ := C178_partial rand t c1 c2 c3 d1 d2 d3 chunks h
  refine ⟨_, e1, ?_⟩
  simp only [e2, e3]
  have hne : optionsFor 0 ≠ optionsFor 0x59 := by decide
  cases d1 <;> cases d2 <;> cases d3 <;> simp [hne, h1.symm, h2.symm]

/-- The set-up with one digit of a command changed. -/
def setupWith (x y z : String) : Bytes := ascii "~\r~\r~\r" ++ ascii x ++ ascii y ++ ascii z

theorem arrival_false : Arrival true { connected := true } 0x68 0x69 0x6a true true false
    [setupWith "A3210038h\r" "A342000Ei\r" "A3300049j\r"] := by
  refine ⟨rfl, (by intro w hw; cases hw), (by decide), ?_, true, true, true, _, _, _, _, _, _, .inl rfl, .whole _, .whole _, .whole _,
    .whole _, .whole _, .changed (ascii "33000") (ascii "9") 0x41 0x35 0x34 0x6a 0x0d (by decide) (by decide) (by decide) (.inl rfl), ?_⟩
  · decide +kernel
  · decide +kernel

/-- With a 4 for the 5 the last command is confirmed as usual, but the interface stays in basic mode. -/
theorem C178_false : ¬ C178_claim := by
  intro h
  obtain ⟨r, h1, h2⟩ := h (fun _ => 1) { connected := true } 0x68 0x69 0x6a true true false _ arrival_false (by decide) (by decide)
  subst h1
  revert h2
  decide +kernel

/-- With a 4 for a 2 the first command sets the options, among them that commands have checksums; the others, which have none, are
then refused. -/
theorem C178_misled :
    ∃ r, feed maxBufferSize (Server.handle fun _ => 1) [setupWith "A3410038h\r" "A342000Ei\r" "A3300059j\r"]
        ⟨[], { connected := true }⟩ = r ∧
      r.2.2 = .ok () ∧ confirmationsOf r.2.1 = [ascii "h."] ∧ optionsOf r.1.st = optionsFor 0x38 := by
  refine ⟨_, rfl, ?_⟩
  decide +kernel

/-- Two resets and the second command lost, a letter for a digit of the first command. -/
example : Arrival false { connected := true } 0x68 0x69 0x6a false false true [ascii "~\rA32x0038h\rA3300059j\r"] := by
  refine ⟨rfl, (by intro w hw; cases hw), (by decide), ?_, false, true, false, _, _, _, _, _, _, .inr (.inl rfl), .lost _, .whole _, .lost _,
    .changed (ascii "32") (ascii "0038") 0x41 0x31 0x78 0x68 0x0d (by decide) (by decide) (by decide) (.inr (by unfold HexDigit; decide)),
    .lost _, .whole _, ?_⟩
  · decide +kernel
  · decide +kernel

/-- The second command lost; the last one lost; the first one with a letter for a digit. -/
example :
    let run (d : Bytes) := feed maxBufferSize (Server.handle fun _ => 1) [d] ⟨[], { connected := true }⟩
    let seen (d : Bytes) := (confirmationsOf (run d).2.1, optionsOf (run d).1.st)
    seen (setupWith "A3210038h\r" "" "A3300059j\r") = ([ascii "h.", ascii "j."], optionsFor 0x59) ∧
    seen (setupWith "A3210038h\r" "A342000Ei\r" "") = ([ascii "h.", ascii "i."], optionsFor 0) ∧
    seen (setupWith "A32x0038h\r" "A342000Ei\r" "A3300059j\r") = ([ascii "i.", ascii "j."], optionsFor 0x59) := by
  decide +kernel

end CBus.Props
