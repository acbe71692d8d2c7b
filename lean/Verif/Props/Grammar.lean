import Verif.Spec.Grammar
import Verif.Props.Lines
import Verif.Props.Report

/-! # C98: the decoder follows the grammar of messages, on every sequence of bytes -/

namespace CBus.Props
open CBus Spec

/-! ## Bits and numbers -/

theorem bit7_iff : ∀ b : UInt8, b &&& 0x80 = 0x80 ↔ ¬ b.toNat < 128 := by apply forall_byte; decide +kernel
theorem low3_iff : ∀ b : UInt8, b &&& 0x07 ≠ 2 ↔ b.toNat % 8 ≠ 2 := by apply forall_byte; decide +kernel
theorem low5_iff : ∀ b : UInt8, b &&& 0x1f ≠ 0 ↔ b.toNat % 32 ≠ 0 := by apply forall_byte; decide +kernel
theorem update_iff : ∀ b : UInt8, b &&& 0xf8 = 0x08 ↔ b.toNat / 8 = 1 := by apply forall_byte; decide +kernel
theorem low3_toNat : ∀ b : UInt8, (b &&& 7).toNat = b.toNat % 8 := by apply forall_byte; decide +kernel
theorem low5_toNat : ∀ b : UInt8, (b &&& 0x1f).toNat = b.toNat % 32 := by apply forall_byte; decide +kernel

theorem ramp_code : ∀ c : UInt8, lightHandler c = some .ramp →
    ∃ k < 16, ∃ d, rampDurations[k]? = some d ∧ c.toNat = rampCode k ∧ rampRateToDuration c.toNat = .ok d := by
  have : ∀ c : UInt8, lightHandler c = some .ramp →
      ∃ k < 16, (rampDurations[k]?).isSome ∧ c.toNat = rampCode k ∧
        rampRateToDuration c.toNat = .ok ((rampDurations[k]?).getD 0) := by
    apply forall_byte; decide +kernel
  intro c h
  obtain ⟨k, hk, h1, h2, h3⟩ := this c h
  obtain ⟨d, hd⟩ := Option.isSome_iff_exists.1 h1
  exact ⟨k, hk, d, hd, h2, by rw [h3, hd]; rfl⟩

theorem ramp_duration {k : Nat} {d : Int} {c : UInt8} (hd : rampDurations[k]? = some d) (hc : c.toNat = rampCode k) :
    rampRateToDuration c.toNat = .ok d := by
  have hk : k < 16 := by
    rcases Nat.lt_or_ge k 16 with h | h
    · exact h
    · rw [List.getElem?_eq_none (by simpa [rampDurations] using h)] at hd
      cases hd
  rw [hc]
  have : ∀ k : Fin 16, rampRateToDuration (rampCode k.val : Nat) = .ok ((rampDurations[k.val]?).getD 0) := by decide +kernel
  rw [this ⟨k, hk⟩]
  simp only [hd]
  rfl

/-! ## The applications -/

theorem pcons_map (s : SAL) (r : Py (List SAL)) : pcons s r = r.map ((some s).toList ++ ·) := by
  cases r <;> rfl

theorem consOpt_map (s : Option SAL) (r : Py (List SAL)) :
    (match r with
      | .error e => .error e
      | .ok l => .ok (consOpt s l)) = r.map (s.toList ++ ·) := by
  cases r <;> cases s <;> rfl

theorem command_shorter {a : AppHandler} {d : Bytes} {s : Option SAL} {rest : Bytes} (h : Command a d s rest) :
    rest.length < d.length := by
  cases h <;> simp <;> omega

theorem clockUpdate_eq (cmd : UInt8) (data : Bytes) (hc : cmd.toNat / 8 = 1) :
    clockDecode (cmd :: data) = match clockUpdateDecode data cmd with
      | .error e => .error e
      | .ok r => (clockDecode r.2).map (r.1.toList ++ ·) := by
  have hc' := (update_iff cmd).2 hc
  have h1 : ¬ (cmd &&& 0x80 = 0x80) := by rw [bit7_iff]; omega
  have h2 : ¬ (cmd &&& 0xe0 ≠ 0) := by
    have : ∀ b : UInt8, b.toNat / 8 = 1 → ¬ (b &&& 0xe0 ≠ 0) := by apply forall_byte; decide +kernel
    exact this cmd hc
  rw [clockDecode]
  rw [if_neg h1, if_neg h2, if_pos hc']
  split
  · rename_i e he; rw [he]
  · rename_i r hr
    rw [hr]
    exact consOpt_map _ _

theorem clockRequest_eq (data : Bytes) :
    clockDecode (0x11 :: data) = match clockRequestDecode data with
      | .error e => .error e
      | .ok r => (clockDecode r.2).map (r.1.toList ++ ·) := by
  rw [clockDecode]
  rw [if_neg (by decide), if_neg (by decide), if_neg (by decide), if_pos rfl]
  split
  · rename_i e he; rw [he]
  · rename_i r hr
    rw [hr]
    exact consOpt_map _ _

theorem command_eq {a : AppHandler} {d : Bytes} {s : Option SAL} {rest : Bytes} (h : Command a d s rest) :
    a.decodeSals d = (a.decodeSals rest).map (s.toList ++ ·) := by
  cases h with
  | lightOn ga => exact (lightingDecode_on _ _).trans (pcons_map _ _)
  | lightOff ga => exact (lightingDecode_off _ _).trans (pcons_map _ _)
  | lightTerminate ga => exact (lightingDecode_terminate _ _).trans (pcons_map _ _)
  | lightRamp k d cmd ga level _ hd hc => exact (lightingDecode_ramp _ _ _ _ (ramp_duration hd hc) _).trans (pcons_map _ _)
  | temperature cmd ga t _ h1 h2 =>
    simp only [AppHandler.decodeSals]
    rw [temperatureDecode, if_neg (by rw [bit7_iff]; omega), if_neg (by rw [low3_iff]; omega)]
    rfl
  | enable cmd var val _ h1 h2 =>
    simp only [AppHandler.decodeSals]
    rw [enableDecode, if_neg (by rw [bit7_iff]; omega), if_neg (by rw [low3_iff]; omega)]
    rfl
  | binaryRequest c app ga _ hc hg =>
    simp only [AppHandler.decodeSals]
    rw [statusDecode, if_pos hc]
    simp only [statusBody, if_neg ((not_congr (low5_iff ga)).2 (by omega)), bind, Except.bind, pure, Except.pure]
    cases statusDecode rest <;> rfl
  | levelRequest app ga _ hg =>
    simp only [AppHandler.decodeSals]
    rw [statusDecode, if_neg (by decide), if_pos rfl]
    simp only [statusBody, if_neg ((not_congr (low5_iff ga)).2 (by omega)), bind, Except.bind, pure, Except.pure]
    cases statusDecode rest <;> rfl
  | date yh yl m d w _ h =>
    simp only [AppHandler.decodeSals]
    rw [clockUpdate_eq _ _ (by decide), clockUpdateDecode_date yh yl m d w rest _ (by rw [mkDate, if_pos h])]
  | time h m s dst _ hv =>
    simp only [AppHandler.decodeSals]
    rw [clockUpdate_eq _ _ (by decide), clockUpdateDecode_time h m s dst rest _
      (by rw [mkTime, if_pos ⟨hv.1, hv.2.1, hv.2.2, Nat.zero_lt_succ _⟩])]
  | request =>
    simp only [AppHandler.decodeSals]
    rw [clockRequest_eq]
    rfl
  | otherRequest x _ h =>
    simp only [AppHandler.decodeSals]
    rw [clockRequest_eq]
    simp [clockRequestDecode, byteAt, bind, Except.bind, pure, Except.pure, h]
  | otherLength cmd var rest h hv =>
    simp only [AppHandler.decodeSals]
    rw [clockUpdate_eq _ _ h]
    have hl := low3_toNat cmd
    have key : clockUpdateDecode (var :: rest) cmd = .ok (none, (var :: rest).drop (cmd.toNat % 8)) := by
      have six : ∀ c : UInt8, c.toNat / 8 = 1 → c ≠ 0x0e → c.toNat % 8 ≠ 6 := by apply forall_byte; decide +kernel
      have five : ∀ c : UInt8, c.toNat / 8 = 1 → c ≠ 0x0d → c.toNat % 8 ≠ 5 := by apply forall_byte; decide +kernel
      unfold clockUpdateDecode
      simp only [byteAt, List.getElem?_cons_zero, bind, Except.bind, pure, Except.pure, hl]
      rcases hv with ⟨rfl, hc⟩ | ⟨rfl, hc⟩
      · rw [if_pos rfl, if_pos (six cmd h hc)]
      · rw [if_neg (by decide), if_pos rfl, if_pos (five cmd h hc)]
    rw [key]
  | otherVariable cmd var rest h h1 h2 =>
    simp only [AppHandler.decodeSals]
    rw [clockUpdate_eq _ _ h]
    have hl := low3_toNat cmd
    have key : clockUpdateDecode (var :: rest) cmd = .ok (none, (var :: rest).drop (2 * (cmd.toNat % 8))) := by
      unfold clockUpdateDecode
      simp only [byteAt, List.getElem?_cons_zero, bind, Except.bind, pure, Except.pure, hl]
      rw [if_neg h2, if_neg h1, List.drop_drop]
      congr 3
      omega
    rw [key]

theorem refused_eq {a : AppHandler} {d : Bytes} {e : PyErr} (h : Refused a d e) : a.decodeSals d = .error e := by
  cases h with
  | shortBinaryRequest c rest hc h =>
    simp only [AppHandler.decodeSals]
    match rest, h with
    | [], _ => unfold statusDecode; simp [hc]
    | [x], _ => unfold statusDecode; simp [hc]
  | shortLevelRequest rest h =>
    simp only [AppHandler.decodeSals]
    match rest, h with
    | [], _ => unfold statusDecode; simp
    | [x], _ => unfold statusDecode; simp
  | binaryGroup c app ga rest hc hg =>
    simp only [AppHandler.decodeSals]
    rw [statusDecode, if_pos hc]
    simp only [statusBody, if_pos ((low5_iff ga).2 hg), bind, Except.bind]
  | levelGroup app ga rest hg =>
    simp only [AppHandler.decodeSals]
    rw [statusDecode, if_neg (by decide), if_pos rfl]
    simp only [statusBody, if_pos ((low5_iff ga).2 hg), bind, Except.bind]
  | otherRequest c rest h =>
    simp only [AppHandler.decodeSals]
    simp only [List.mem_cons, List.not_mem_nil, or_false, not_or] at h
    unfold statusDecode
    simp [h]
  | otherLevelRequest rest h =>
    simp only [AppHandler.decodeSals]
    unfold statusDecode
    simp only [if_neg (show ¬ ((0x73 : UInt8) = 0x7a ∨ (0x73 : UInt8) = 0xfa) by decide), if_true]
    split
    · simp at h
    · simp at h
    · rfl
  | noVariable cmd h =>
    simp only [AppHandler.decodeSals]
    rcases h with h | rfl
    · rw [clockUpdate_eq _ _ h]; rfl
    · rw [clockRequest_eq]; rfl
  | shortDate rest h =>
    simp only [AppHandler.decodeSals]
    rw [clockUpdate_eq _ _ (by decide)]
    match rest, h with
    | [], _ => rfl
    | [_], _ => rfl
    | [_, _], _ => rfl
    | [_, _, _], _ => rfl
    | [_, _, _, _], _ => rfl
  | shortTime rest h =>
    simp only [AppHandler.decodeSals]
    rw [clockUpdate_eq _ _ (by decide)]
    match rest, h with
    | [], _ => rfl
    | [_], _ => rfl
    | [_, _], _ => rfl
    | [_, _, _], _ => rfl
  | date yh yl m d w rest h =>
    simp only [AppHandler.decodeSals]
    rw [clockUpdate_eq _ _ (by decide)]
    have key : clockUpdateDecode (0x02 :: yh :: yl :: m :: d :: w :: rest) 0x0e = .error .valueError := by
      have hl : ((0x0e : UInt8) &&& 7).toNat = 6 := by decide
      unfold clockUpdateDecode
      simp only [byteAt, List.getElem?_cons_zero, bind, Except.bind, pure, Except.pure, hl]
      simp [mkDate, h]
    rw [key]
  | time hh m s dst rest hv =>
    simp only [AppHandler.decodeSals]
    rw [clockUpdate_eq _ _ (by decide)]
    have key : clockUpdateDecode (0x01 :: hh :: m :: s :: dst :: rest) 0x0d = .error .valueError := by
      have hl : ((0x0d : UInt8) &&& 7).toNat = 5 := by decide
      unfold clockUpdateDecode
      simp only [byteAt, List.getElem?_cons_zero, bind, Except.bind, pure, Except.pure, hl]
      have : ¬ PyTime.Valid ⟨hh.toNat, m.toNat, s.toNat, 0⟩ := fun h => hv ⟨h.1, h.2.1, h.2.2.1⟩
      simp [mkTime, this]
    rw [key]

/-- At the front of the data there is a command, or they are refused, or they are
ignored. -/
theorem command_or (a : AppHandler) (d : Bytes) :
    (∃ s rest, Command a d s rest) ∨ (∃ e, Refused a d e) ∨ a.decodeSals d = .ok [] := by
  cases a with
  | lighting =>
    simp only [AppHandler.decodeSals]
    match d with
    | [] => exact .inr (.inr (by rw [lightingDecode]))
    | [_] => exact .inr (.inr (by rw [lightingDecode]))
    | cmd :: ga :: rest =>
      cases hk : lightHandler cmd with
      | none => exact .inr (.inr (by rw [lightingDecode, hk]))
      | some k =>
        have inv : ∀ c : UInt8, ∀ k ∈ lightHandler c, k = .on ∧ c = 0x79 ∨ k = .off ∧ c = 0x01 ∨
            k = .terminate ∧ c = 0x09 ∨ k = .ramp := by
          apply forall_byte; decide +kernel
        rcases inv cmd k hk with ⟨rfl, rfl⟩ | ⟨rfl, rfl⟩ | ⟨rfl, rfl⟩ | rfl
        · exact .inl ⟨_, _, .lightOn ga rest⟩
        · exact .inl ⟨_, _, .lightOff ga rest⟩
        · exact .inl ⟨_, _, .lightTerminate ga rest⟩
        · obtain ⟨k, -, d, h1, h2, h3⟩ := ramp_code cmd hk
          match rest with
          | [] => exact .inr (.inr (by rw [lightingDecode, hk]; simp [h3]))
          | level :: rest => exact .inl ⟨_, _, .lightRamp k d cmd ga level rest h1 h2⟩
  | temperature =>
    simp only [AppHandler.decodeSals]
    match d with
    | [] => exact .inr (.inr rfl)
    | [_] => exact .inr (.inr rfl)
    | [_, _] => exact .inr (.inr rfl)
    | cmd :: ga :: t :: rest =>
      by_cases h1 : cmd.toNat < 128
      · by_cases h2 : cmd.toNat % 8 = 2
        · exact .inl ⟨_, _, .temperature cmd ga t rest h1 h2⟩
        · exact .inr (.inr (by
            rw [temperatureDecode, if_neg (by rw [bit7_iff]; omega), if_pos ((low3_iff cmd).2 h2)]))
      · exact .inr (.inr (by rw [temperatureDecode, if_pos ((bit7_iff cmd).2 h1)]))
  | enable =>
    simp only [AppHandler.decodeSals]
    match d with
    | [] => exact .inr (.inr rfl)
    | [_] => exact .inr (.inr rfl)
    | [_, _] => exact .inr (.inr rfl)
    | cmd :: ga :: t :: rest =>
      by_cases h1 : cmd.toNat < 128
      · by_cases h2 : cmd.toNat % 8 = 2
        · exact .inl ⟨_, _, .enable cmd ga t rest h1 h2⟩
        · exact .inr (.inr (by
            rw [enableDecode, if_neg (by rw [bit7_iff]; omega), if_pos ((low3_iff cmd).2 h2)]))
      · exact .inr (.inr (by rw [enableDecode, if_pos ((bit7_iff cmd).2 h1)]))
  | statusRequest =>
    match d with
    | [] => exact .inr (.inr (by simp only [AppHandler.decodeSals]; rw [statusDecode]))
    | c :: rest =>
      by_cases hc : c = 0x7a ∨ c = 0xfa
      · match rest with
        | [] => exact .inr (.inl ⟨_, .shortBinaryRequest c [] hc (by decide)⟩)
        | [x] => exact .inr (.inl ⟨_, .shortBinaryRequest c [x] hc (by simp)⟩)
        | app :: ga :: rest =>
          by_cases hg : ga.toNat % 32 = 0
          · exact .inl ⟨_, _, .binaryRequest c app ga rest hc hg⟩
          · exact .inr (.inl ⟨_, .binaryGroup c app ga rest hc hg⟩)
      · by_cases h7 : c = 0x73
        · subst h7
          by_cases hh : rest.head? = some 0x07
          · match rest, hh with
            | x :: rest, hh =>
              have : x = 0x07 := by simpa using hh
              subst this
              match rest with
              | [] => exact .inr (.inl ⟨_, .shortLevelRequest [] (by decide)⟩)
              | [x] => exact .inr (.inl ⟨_, .shortLevelRequest [x] (by simp)⟩)
              | app :: ga :: rest =>
                by_cases hg : ga.toNat % 32 = 0
                · exact .inl ⟨_, _, .levelRequest app ga rest hg⟩
                · exact .inr (.inl ⟨_, .levelGroup app ga rest hg⟩)
          · exact .inr (.inl ⟨_, .otherLevelRequest rest hh⟩)
        · exact .inr (.inl ⟨_, .otherRequest c rest (by simp_all)⟩)
  | clock =>
    match d with
    | [] => exact .inr (.inr (by simp only [AppHandler.decodeSals]; rw [clockDecode]))
    | cmd :: rest =>
      by_cases hu : cmd.toNat / 8 = 1
      · match rest with
        | [] => exact .inr (.inl ⟨_, .noVariable cmd (.inl hu)⟩)
        | var :: rest =>
          by_cases h2 : var = 0x02
          · subst h2
            by_cases hc : cmd = 0x0e
            · subst hc
              match rest with
              | [] => exact .inr (.inl ⟨_, .shortDate _ (by simp)⟩)
              | [_] => exact .inr (.inl ⟨_, .shortDate _ (by simp)⟩)
              | [_, _] => exact .inr (.inl ⟨_, .shortDate _ (by simp)⟩)
              | [_, _, _] => exact .inr (.inl ⟨_, .shortDate _ (by simp)⟩)
              | [_, _, _, _] => exact .inr (.inl ⟨_, .shortDate _ (by simp)⟩)
              | yh :: yl :: m :: d :: w :: rest =>
                by_cases hv : PyDate.Valid ⟨yh.toNat * 256 + yl.toNat, m.toNat, d.toNat⟩
                · exact .inl ⟨_, _, .date yh yl m d w rest hv⟩
                · exact .inr (.inl ⟨_, .date yh yl m d w rest hv⟩)
            · exact .inl ⟨_, _, .otherLength cmd _ rest hu (.inl ⟨rfl, hc⟩)⟩
          · by_cases h1 : var = 0x01
            · subst h1
              by_cases hc : cmd = 0x0d
              · subst hc
                match rest with
                | [] => exact .inr (.inl ⟨_, .shortTime _ (by simp)⟩)
                | [_] => exact .inr (.inl ⟨_, .shortTime _ (by simp)⟩)
                | [_, _] => exact .inr (.inl ⟨_, .shortTime _ (by simp)⟩)
                | [_, _, _] => exact .inr (.inl ⟨_, .shortTime _ (by simp)⟩)
                | h :: m :: s :: x :: rest =>
                  by_cases hv : h.toNat < 24 ∧ m.toNat < 60 ∧ s.toNat < 60
                  · exact .inl ⟨_, _, .time h m s x rest hv⟩
                  · exact .inr (.inl ⟨_, .time h m s x rest hv⟩)
              · exact .inl ⟨_, _, .otherLength cmd _ rest hu (.inr ⟨rfl, hc⟩)⟩
            · exact .inl ⟨_, _, .otherVariable cmd var rest hu h1 h2⟩
      · by_cases hr : cmd = 0x11
        · subst hr
          match rest with
          | [] => exact .inr (.inl ⟨_, .noVariable _ (.inr rfl)⟩)
          | x :: rest =>
            by_cases h3 : x = 0x03
            · subst h3
              exact .inl ⟨_, _, .request rest⟩
            · exact .inl ⟨_, _, .otherRequest x rest h3⟩
        · refine .inr (.inr ?_)
          simp only [AppHandler.decodeSals]
          rw [clockDecode]
          rw [if_neg ((not_congr (update_iff cmd)).2 hu), if_neg hr]
          simp

theorem reads_decode (a : AppHandler) : ∀ (n : Nat) (d : Bytes), d.length ≤ n → Reads a d (a.decodeSals d) := by
  intro n
  induction n with
  | zero =>
    intro d hd
    have hd : d = [] := by simpa using hd
    subst hd
    rcases command_or a [] with ⟨s, rest, h⟩ | ⟨e, h⟩ | h
    · exact absurd (command_shorter h) (by simp)
    · rw [refused_eq h]; exact .refused [] e h
    · rw [h]
      refine .stop [] (fun s rest h => absurd (command_shorter h) (by simp)) ?_
      intro e h
      cases h
  | succ n ih =>
    intro d hd
    by_cases h1 : ∃ s rest, Command a d s rest
    · obtain ⟨s, rest, h⟩ := h1
      rw [command_eq h]
      exact .command d s rest _ h (ih rest (by have := command_shorter h; omega))
    · by_cases h2 : ∃ e, Refused a d e
      · obtain ⟨e, h⟩ := h2
        rw [refused_eq h]
        exact .refused d e h
      · rcases command_or a d with h | h | h
        · exact absurd h h1
        · exact absurd h h2
        · rw [h]
          exact .stop d (fun s rest h => h1 ⟨s, rest, h⟩) (fun e h => h2 ⟨e, h⟩)

/-- C98: the data of an application are read as its commands, as far as there are any;
what remains is ignored, or the whole is refused with the right exception. -/
theorem C98_applications (a : AppHandler) (d : Bytes) (r : Py (List SAL)) : a.decodeSals d = r ↔ Reads a d r := by
  constructor
  · rintro rfl
    exact reads_decode a d.length d (Nat.le_refl _)
  · intro h
    induction h with
    | command d s rest r h _ ih => rw [command_eq h, ih]
    | refused d e h => exact refused_eq h
    | stop d h1 h2 =>
      rcases command_or a d with ⟨s, rest, h⟩ | ⟨e, h⟩ | h
      · exact absurd h (h1 s rest)
      · exact absurd h (h2 e)
      · exact h

example : Reads .clock [0x0d, 0x01, 23, 59, 58, 0xff, 0x0a, 0x01, 0x00, 0x11, 0x03]
    (.ok [.clockUpdate (.time ⟨23, 59, 58, 0⟩), .clockRequest]) :=
  .command _ _ _ (.ok [.clockRequest]) (.time 23 59 58 0xff [0x0a, 0x01, 0x00, 0x11, 0x03] (by decide))
    (.command _ none [0x11, 0x03] (.ok [.clockRequest])
      (.otherLength 0x0a 0x01 [0x00, 0x11, 0x03] (by decide) (.inr ⟨rfl, by decide⟩))
      (.command _ _ [] (.ok []) (.request []) (.stop [] (fun _ _ h => nomatch h) (fun _ h => nomatch h))))

/-! ## CALs -/

theorem reply_iff : ∀ b : UInt8, b &&& 0xe0 = 0x80 ↔ b.toNat / 32 = 4 := by apply forall_byte; decide +kernel
theorem standard_iff : ∀ b : UInt8, b &&& 0xe0 = 0xc0 ↔ b.toNat / 32 = 6 := by apply forall_byte; decide +kernel
theorem extended_iff : ∀ b : UInt8, b &&& 0xe0 = 0xe0 ↔ b.toNat / 32 = 7 := by apply forall_byte; decide +kernel
theorem external_eq : ∀ b : UInt8, decide (b &&& 0x40 > 0) = (b.toNat / 64 % 2 == 1) := by apply forall_byte; decide +kernel
theorem coding0_iff : ∀ b : UInt8, b &&& 7 = 0x00 ↔ b.toNat % 8 = 0 := by apply forall_byte; decide +kernel
theorem coding7_iff : ∀ b : UInt8, b &&& 7 = 0x07 ↔ b.toNat % 8 = 7 := by apply forall_byte; decide +kernel

theorem binaryDecode_states (d : Bytes) : binaryDecode d = d.flatMap statesOf := by
  have one : ∀ c : UInt8, [GroupState.ofBits (c &&& 3), GroupState.ofBits (c >>> 2 &&& 3),
      GroupState.ofBits (c >>> 4 &&& 3), GroupState.ofBits (c >>> 6 &&& 3)] = statesOf c := by
    apply forall_byte; decide +kernel
  induction d with
  | nil => rfl
  | cons c d ih =>
    rw [binaryDecode, ih, List.flatMap_cons, ← one c]
    rfl

theorem levelOf_iff (b0 b1 : UInt8) (l : Option Int) :
    LevelOf b0 b1 l ↔ (manchesterDecode2 b0 b1).map (fun v => (v.toNat : Int)) = l := by
  have word : ∀ v : UInt8, (manchesterPair v).1.toNat + 256 * (manchesterPair v).2.toNat = manchesterWord v.toNat := by
    apply forall_byte; decide +kernel
  have split : ∀ a b c d : UInt8, a.toNat + 256 * b.toNat = c.toNat + 256 * d.toNat → a = c ∧ b = d := by
    intro a b c d h
    have := a.toNat_lt; have := b.toNat_lt; have := c.toNat_lt; have := d.toNat_lt
    exact ⟨UInt8.toNat_inj.1 (by omega), UInt8.toNat_inj.1 (by omega)⟩
  have code : ∀ v < 256, b0.toNat + 256 * b1.toNat = manchesterWord v →
      manchesterDecode2 b0 b1 = some (UInt8.ofNat v) := by
    intro v hv h
    have hw := word (UInt8.ofNat v)
    rw [UInt8.toNat_ofNat', Nat.mod_eq_of_lt hv, ← h] at hw
    obtain ⟨h0, h1⟩ := split _ _ _ _ hw
    rw [← h0, ← h1, manchesterDecode2_pair]
  constructor
  · rintro (⟨v, hv, h, rfl⟩ | ⟨h, rfl⟩)
    · rw [code v hv h]
      simp [Nat.mod_eq_of_lt hv]
    · cases hm : manchesterDecode2 b0 b1 with
      | none => rfl
      | some w =>
        have hp := manchesterDecode2_some b0 b1 w hm
        have := word w
        rw [hp] at this
        exact absurd this (h _ w.toNat_lt)
  · rintro rfl
    cases hm : manchesterDecode2 b0 b1 with
    | none =>
      refine .inr ⟨fun v hv h => ?_, rfl⟩
      rw [code v hv h] at hm
      cases hm
    | some w =>
      have hp := manchesterDecode2_some b0 b1 w hm
      have := word w
      rw [hp] at this
      exact .inl ⟨w.toNat, w.toNat_lt, this, rfl⟩

theorem levelsOf_iff : ∀ (d : Bytes) (ls : List (Option Int)), LevelsOf d ls ↔ levelDecode d = .ok ls
  | [], ls => by
    unfold levelDecode
    constructor
    · intro h; cases h; rfl
    · intro h
      simp [levelDecodeGo] at h
      subst h
      exact .nil
  | [x], ls => by
    unfold levelDecode
    constructor
    · intro h; cases h
    · intro h
      simp at h
  | b0 :: b1 :: rest, ls => by
    have ih := levelsOf_iff rest
    have hl : levelDecode (b0 :: b1 :: rest) = (levelDecode rest).map
        ((manchesterDecode2 b0 b1).map (fun v => (v.toNat : Int)) :: ·) := by
      unfold levelDecode
      by_cases h : rest.length % 2 = 0
      · rw [if_neg (by simp; omega), if_neg (by omega)]
        rfl
      · rw [if_pos (by simp; omega), if_pos h]
        rfl
    rw [hl]
    constructor
    · intro h
      cases h with
      | cons _ _ _ l ls h hr =>
        rw [(ih ls).1 hr, (levelOf_iff b0 b1 l).1 h]
        rfl
    · intro h
      cases hr : levelDecode rest with
      | error e => rw [hr] at h; cases h
      | ok ls' =>
        rw [hr] at h
        injection h with h
        subst h
        exact .cons b0 b1 rest _ _ ((levelOf_iff _ _ _).2 rfl) ((ih ls').2 hr)

/-- `decode_cal` without bit operations. -/
theorem decodeCal_cons (n : UInt8) (rest : Bytes) : decodeCal (n :: rest) =
    if n.toNat / 32 = 4 then
      if rest.length < n.toNat % 32 then .error .valueError
      else (replyDecode (rest.take (n.toNat % 32))).map (·, n.toNat % 32 + 1)
    else if n.toNat / 32 = 6 then .error .notImplemented
    else if n.toNat / 32 = 7 then
      if rest.length < n.toNat % 32 then .error .valueError
      else (extendedDecode (rest.take (n.toNat % 32))).map (·, n.toNat % 32 + 1)
    else if n = 0x21 then
      match rest with
      | [] => .error .indexError
      | a :: _ => if a.toNat ≤ 0x11 then .ok (.identify a.toNat, 2) else .error .valueError
    else if n = 0x1a then
      match rest with
      | p :: c :: _ => .ok (.recall p.toNat c.toNat, 3)
      | _ => .error .indexError
    else .error .keyError := by
  simp only [decodeCal, byteAt, List.getElem?_cons_zero, List.getElem?_cons_succ, bind, Except.bind, pure, Except.pure,
    low5_toNat, reply_iff, standard_iff, extended_iff, throw, throwThe, MonadExceptOf.throw, List.length_cons,
    Nat.add_lt_add_iff_right, List.take_succ_cons, List.drop_succ_cons, List.drop_zero]
  split
  · split
    · rfl
    · cases replyDecode (List.take (n.toNat % 32) rest) <;> rfl
  · split
    · rfl
    · split
      · split
        · rfl
        · cases extendedDecode (List.take (n.toNat % 32) rest) <;> rfl
      · split
        · cases rest with
          | nil => rfl
          | cons a rest =>
            simp only [List.getElem?_cons_zero, mkIdentifyAttribute, UInt8.le_iff_toNat_le]
            by_cases h : a.toNat ≤ 0x11
            · rw [if_pos h, if_pos (by exact h)]
            · rw [if_neg h, if_neg (by exact h)]
        · split
          · match rest with
            | [] => rfl
            | [_] => rfl
            | _ :: _ :: _ => rfl
          · rfl

theorem replyDecode_eq : ∀ d : Bytes, replyDecode d = match d with
    | [] => .error .indexError
    | p :: data => .ok (.reply p.toNat data)
  | [] => rfl
  | _ :: _ => rfl

theorem extendedDecode_eq (d : Bytes) : extendedDecode d = match d with
    | coding :: app :: blk :: data =>
      if coding.toNat % 8 = 0 then
        .ok (.extended (coding.toNat / 64 % 2 == 1) app.toNat blk.toNat (.binary (data.flatMap statesOf)))
      else if coding.toNat % 8 = 7 then
        (levelDecode data).map fun ls => .extended (coding.toNat / 64 % 2 == 1) app.toNat blk.toNat (.level ls)
      else .error .notImplemented
    | _ => .error .indexError := by
  match d with
  | [] => rfl
  | [_] => rfl
  | [_, _] => rfl
  | coding :: app :: blk :: data =>
    simp only [extendedDecode, byteAt, List.getElem?_cons_zero, List.getElem?_cons_succ, bind, Except.bind, pure,
      Except.pure, coding0_iff, coding7_iff, external_eq, throw, throwThe, MonadExceptOf.throw, List.drop_succ_cons,
      List.drop_zero, binaryDecode_states]
    split
    · rfl
    · split
      · cases levelDecode data <;> rfl
      · rfl

theorem calAt_eq {d : Bytes} {c : CAL} {n : Nat} (h : CalAt d c n) : decodeCal d = .ok (c, n) := by
  cases h with
  | identify a rest h => rw [decodeCal_cons]; simp [h]
  | recall p c rest => rw [decodeCal_cons]; simp
  | reply n p data rest h hl =>
    have h1 : n.toNat / 32 = 4 := by omega
    have h2 : n.toNat % 32 = data.length + 1 := by omega
    rw [decodeCal_cons, if_pos h1, h2, if_neg (by simp), replyDecode_eq]
    simp [Except.map]
  | binary n coding app blk data rest h hc =>
    have hn := n.toNat_lt
    have h1 : n.toNat / 32 = 7 := by omega
    have h2 : n.toNat % 32 = data.length + 3 := by omega
    rw [decodeCal_cons, if_neg (by omega), if_neg (by omega), if_pos h1, h2, if_neg (by simp), extendedDecode_eq]
    simp [Except.map, hc]
  | level n coding app blk data rest ls h hc hl =>
    have hn := n.toNat_lt
    have h1 : n.toNat / 32 = 7 := by omega
    have h2 : n.toNat % 32 = data.length + 3 := by omega
    rw [decodeCal_cons, if_neg (by omega), if_neg (by omega), if_pos h1, h2, if_neg (by simp), extendedDecode_eq]
    simp [Except.map, hc, (levelsOf_iff data ls).1 hl]

theorem take_header (n : Nat) (x : UInt8) (rest : Bytes) (hn : 3 ≤ n) (hl : n ≤ rest.length + 1) :
    ∃ app blk data rest', rest = app :: blk :: (data ++ rest') ∧ data.length + 3 = n ∧
      (x :: rest).take n = x :: app :: blk :: data := by
  match rest, hl with
  | [], hl => simp at hl; omega
  | [_], hl => simp at hl; omega
  | app :: blk :: r, hl =>
    refine ⟨app, blk, r.take (n - 3), r.drop (n - 3), by rw [List.take_append_drop], ?_, ?_⟩
    · simp at hl ⊢; omega
    · obtain ⟨k, rfl⟩ : ∃ k, n = k + 3 := ⟨n - 3, by omega⟩
      simp

theorem calRefused_eq {d : Bytes} {e : PyErr} (h : CalRefused d e) : decodeCal d = .error e := by
  cases h with
  | empty => rfl
  | short n rest h hl =>
    rw [decodeCal_cons]
    rcases h with h | h
    · rw [if_pos h, if_pos hl]
    · rw [if_neg (by omega), if_neg (by omega), if_pos h, if_pos hl]
  | emptyReply rest => rw [decodeCal_cons]; simp [replyDecode_eq, Except.map]
  | standard n rest h => rw [decodeCal_cons, if_neg (by omega), if_pos h]
  | noHeader n rest h hn hl =>
    rw [decodeCal_cons, if_neg (by omega), if_neg (by omega), if_pos h, if_neg (by omega)]
    have : (List.take (n.toNat % 32) rest).length < 3 := by simp; omega
    generalize List.take (n.toNat % 32) rest = t at this
    match t, this with
    | [], _ => rfl
    | [_], _ => rfl
    | [_, _], _ => rfl
  | coding n coding rest h hn hl hc =>
    rw [decodeCal_cons, if_neg (by omega), if_neg (by omega), if_pos h, if_neg (by simp; omega)]
    obtain ⟨app, blk, data, rest', -, -, h3⟩ := take_header _ coding rest hn hl
    rw [h3, extendedDecode_eq]
    simp [Except.map, hc]
  | oddLevels n coding rest h hn hl hc ho =>
    rw [decodeCal_cons, if_neg (by omega), if_neg (by omega), if_pos h, if_neg (by simp; omega)]
    obtain ⟨app, blk, data, rest', -, h2, h3⟩ := take_header _ coding rest hn hl
    rw [h3, extendedDecode_eq]
    have : data.length % 2 = 1 := by omega
    simp [Except.map, hc, levelDecode, this]
  | shortIdentify => rfl
  | unknownAttribute a rest h => rw [decodeCal_cons]; simp; omega
  | shortRecall rest h =>
    match rest, h with
    | [], _ => rfl
    | [_], _ => rfl
  | unknown n rest h h1 h2 =>
    simp only [List.mem_cons, List.not_mem_nil, or_false, not_or] at h
    rw [decodeCal_cons]
    simp [h, h1, h2]

theorem cal_or (d : Bytes) : (∃ c n, CalAt d c n) ∨ ∃ e, CalRefused d e := by
  cases d with
  | nil => exact .inr ⟨_, .empty⟩
  | cons n rest =>
    have hb := n.toNat_lt
    by_cases h4 : n.toNat / 32 = 4
    · by_cases hl : rest.length < n.toNat % 32
      · exact .inr ⟨_, .short n rest (.inl h4) hl⟩
      · by_cases h0 : n.toNat % 32 = 0
        · have : n = 0x80 := UInt8.toNat_inj.1 (by simp; omega)
          subst this
          exact .inr ⟨_, .emptyReply rest⟩
        · match rest, hl with
          | [], hl => simp at hl; omega
          | p :: r, hl =>
            simp at hl
            have hd : (r.take (n.toNat % 32 - 1)).length = n.toNat % 32 - 1 := by simp; omega
            have := CalAt.reply n p (r.take (n.toNat % 32 - 1)) (r.drop (n.toNat % 32 - 1)) (by omega) (by omega)
            rw [List.take_append_drop] at this
            exact .inl ⟨_, _, this⟩
    · by_cases h6 : n.toNat / 32 = 6
      · exact .inr ⟨_, .standard n rest h6⟩
      · by_cases h7 : n.toNat / 32 = 7
        · by_cases hl : rest.length < n.toNat % 32
          · exact .inr ⟨_, .short n rest (.inr h7) hl⟩
          · by_cases h3 : n.toNat % 32 < 3
            · exact .inr ⟨_, .noHeader n rest h7 h3 (by omega)⟩
            · match rest, hl with
              | [], hl => simp at hl; omega
              | coding :: rest, hl =>
                have hl' : n.toNat % 32 ≤ rest.length + 1 := by simp at hl; omega
                by_cases hc0 : coding.toNat % 8 = 0
                · obtain ⟨app, blk, data, rest', rfl, h2, -⟩ := take_header _ coding rest (by omega) hl'
                  exact .inl ⟨_, _, .binary n coding app blk data rest' (by omega) hc0⟩
                · by_cases hc7 : coding.toNat % 8 = 7
                  · by_cases ho : n.toNat % 2 = 0
                    · exact .inr ⟨_, .oddLevels n coding rest h7 (by omega) hl' hc7 ho⟩
                    · obtain ⟨app, blk, data, rest', rfl, h2, -⟩ := take_header _ coding rest (by omega) hl'
                      refine .inl ⟨_, _, .level n coding app blk data rest' (levelDecodeGo data) (by omega) hc7 ?_⟩
                      rw [levelsOf_iff, levelDecode, if_neg (by omega)]
                  · exact .inr ⟨_, .coding n coding rest h7 (by omega) hl' ⟨hc0, hc7⟩⟩
        · by_cases h21 : n = 0x21
          · subst h21
            match rest with
            | [] => exact .inr ⟨_, .shortIdentify⟩
            | a :: rest =>
              by_cases ha : a.toNat ≤ 0x11
              · exact .inl ⟨_, _, .identify a rest ha⟩
              · exact .inr ⟨_, .unknownAttribute a rest (by omega)⟩
          · by_cases h1a : n = 0x1a
            · subst h1a
              match rest with
              | [] => exact .inr ⟨_, .shortRecall [] (by simp)⟩
              | [x] => exact .inr ⟨_, .shortRecall [x] (by simp)⟩
              | p :: c :: rest => exact .inl ⟨_, _, .recall p c rest⟩
            · exact .inr ⟨_, .unknown n rest (by simp; omega) h21 h1a⟩

/-- C98: a CAL is decoded iff it has one of the known forms, and otherwise refused for
its own reason. -/
theorem C98_cal (d : Bytes) :
    (∀ c n, decodeCal d = .ok (c, n) ↔ CalAt d c n) ∧ (∀ e, decodeCal d = .error e ↔ CalRefused d e) := by
  refine ⟨fun c n => ⟨fun h => ?_, calAt_eq⟩, fun e => ⟨fun h => ?_, calRefused_eq⟩⟩
  · rcases cal_or d with ⟨c', n', h'⟩ | ⟨e, h'⟩
    · have h1 := calAt_eq h'
      rw [h] at h1
      injection h1 with h1
      injection h1 with h1 h2
      exact h1 ▸ h2 ▸ h'
    · rw [calRefused_eq h'] at h
      cases h
  · rcases cal_or d with ⟨c', n', h'⟩ | ⟨e', h'⟩
    · rw [calAt_eq h'] at h
      cases h
    · have h1 := calRefused_eq h'
      rw [h] at h1
      injection h1 with h1
      exact h1 ▸ h'

theorem calAt_pos {d : Bytes} {c : CAL} {n : Nat} (h : CalAt d c n) : 0 < n ∧ d ≠ [] := by
  cases h <;> simp

theorem decodeCals_eq (d : Bytes) (hd : d ≠ []) : decodeCals d = match decodeCal d with
    | .error e => .error e
    | .ok r => (decodeCals (d.drop r.2)).map (r.1 :: ·) := by
  rw [decodeCals, dif_neg hd]
  split
  · rename_i e he; rw [he]
  · rename_i r hr
    simp only [hr]
    cases decodeCals (List.drop r.2 d) <;> rfl

theorem calsAt_decode : ∀ (n : Nat) (d : Bytes), d.length ≤ n → CalsAt d (decodeCals d) := by
  intro n
  induction n with
  | zero =>
    intro d hd
    have hd : d = [] := by simpa using hd
    subst hd
    rw [decodeCals, dif_pos rfl]
    exact .nil
  | succ n ih =>
    intro d hd
    by_cases hn : d = []
    · subst hn
      rw [decodeCals, dif_pos rfl]
      exact .nil
    · rw [decodeCals_eq d hn]
      rcases cal_or d with ⟨c, k, h⟩ | ⟨e, h⟩
      · rw [calAt_eq h]
        have := (calAt_pos h).1
        have hl : 0 < d.length := List.length_pos_iff.2 hn
        exact .cons d c k _ h (ih _ (by simp; omega))
      · rw [calRefused_eq h]
        exact .refused d e hn h

/-- C98: CALs are decoded one after the other. -/
theorem C98_cals (d : Bytes) (r : Py (List CAL)) : decodeCals d = r ↔ CalsAt d r := by
  constructor
  · rintro rfl
    exact calsAt_decode d.length d (Nat.le_refl _)
  · intro h
    induction h with
    | nil => rw [decodeCals, dif_pos rfl]
    | cons d c n r h _ ih => rw [decodeCals_eq d (calAt_pos h).2, calAt_eq h]; simp only [ih]
    | refused d e hd h => rw [decodeCals_eq d hd, calRefused_eq h]

/-! ## Packets -/

theorem mkApplication_eq (a : UInt8) : mkApplication a =
    if (expectedHandler a.toNat).isSome then .ok a.toNat else .error .valueError := by
  have : ∀ a : UInt8, isApplication a = (expectedHandler a.toNat).isSome := by apply forall_byte; decide +kernel
  rw [mkApplication, this]

theorem appendAll_eq : ∀ (sals : List SAL) (p : PM) (a : Int), p.app = some a →
    p.appendAll sals = if ∀ s ∈ sals, s.application = a then .ok { p with sals := p.sals ++ sals } else .error .valueError
  | [], p, a, h => by simp [PM.appendAll]
  | s :: sals, p, a, h => by
    unfold PM.appendAll PM.appendSal
    simp only [h]
    by_cases hs : s.application = a
    · rw [if_neg (by simp [hs])]
      simp only
      rw [appendAll_eq sals _ a rfl]
      by_cases hr : ∀ s ∈ sals, s.application = a
      · rw [if_pos hr, if_pos (by simpa [hs] using hr)]
        simp
      · rw [if_neg hr, if_neg (by simpa [hs] using hr)]
    · rw [if_pos (by simpa [eq_comm] using hs)]
      simp [hs]

theorem decodePM_two (a r : UInt8) (rest : Bytes) (cs : Bool) (prio : Prio) : decodePM (a :: r :: rest) cs prio =
    match expectedHandler a.toNat with
    | none => .error .valueError
    | some h =>
      if r ≠ 0 then .error .valueError
      else match h.decodeSals rest with
        | .error e => .error e
        | .ok sals =>
          if ∀ s ∈ sals, s.application = a.toNat then
            .ok { checksum := cs, prio := prio, app := some a.toNat, sals := sals, conf := none, src := none }
          else .error .valueError := by
  simp only [decodePM, byteAt, List.getElem?_cons_zero, List.getElem?_cons_succ, bind, Except.bind, pure, Except.pure,
    mkApplication_eq, throw, throwThe, MonadExceptOf.throw, List.drop_succ_cons, List.drop_zero]
  cases hh : expectedHandler a.toNat with
  | none => rfl
  | some h =>
    simp only [Option.isSome_some, if_true, C68_get_application, hh]
    split
    · rfl
    · cases h.decodeSals rest with
      | error e => rfl
      | ok sals =>
        simp only [mkPM]
        rw [appendAll_eq sals _ a.toNat rfl]
        simp

/-- C98: point to multipoint packets. -/
theorem C98_pm (d : Bytes) (cs : Bool) (prio : Prio) (r : Py PM) : decodePM d cs prio = r ↔ PmAt cs prio d r := by
  have fwd : PmAt cs prio d (decodePM d cs prio) := by
    match d with
    | [] => exact .empty
    | [a] =>
      cases hh : expectedHandler a.toNat with
      | none =>
        have : decodePM [a] cs prio = .error .valueError := by
          simp [decodePM, byteAt, bind, Except.bind, mkApplication_eq, hh]
        rw [this]
        exact .application a [] hh
      | some h =>
        have : decodePM [a] cs prio = .error .indexError := by
          simp [decodePM, byteAt, bind, Except.bind, mkApplication_eq, hh]
        rw [this]
        exact .short a h hh
    | a :: x :: rest =>
      rw [decodePM_two]
      cases hh : expectedHandler a.toNat with
      | none => exact .application a _ hh
      | some h =>
        simp only
        by_cases hx : x = 0
        · subst hx
          rw [if_neg (by simp)]
          cases hs : h.decodeSals rest with
          | error e => exact .refused a rest h hh e ((C98_applications h rest _).1 hs)
          | ok sals =>
            simp only
            by_cases ha : ∀ s ∈ sals, s.application = a.toNat
            · rw [if_pos ha]
              exact .packet a rest h hh sals ((C98_applications h rest _).1 hs) ha
            · rw [if_neg ha]
              refine .other a rest h hh sals ((C98_applications h rest _).1 hs) ?_
              simpa using ha
        · rw [if_pos hx]
          exact .routed a x rest h hh hx
  constructor
  · rintro rfl
    exact fwd
  · intro h
    cases h with
    | empty => rfl
    | application a rest hh =>
      cases rest with
      | nil => simp [decodePM, byteAt, bind, Except.bind, mkApplication_eq, hh]
      | cons x rest => rw [decodePM_two, hh]
    | short a h hh => simp [decodePM, byteAt, bind, Except.bind, mkApplication_eq, hh]
    | routed a x rest h hh hx => rw [decodePM_two, hh]; simp [hx]
    | refused a rest h hh e hr => rw [decodePM_two, hh]; simp [(C98_applications h rest _).2 hr]
    | other a rest h hh sals hr ho =>
      rw [decodePM_two, hh]
      simp only [(C98_applications h rest _).2 hr]
      rw [if_neg (by simp), if_neg (by simpa using ho)]
    | packet a rest h hh sals hr hs =>
      rw [decodePM_two, hh]
      simp only [(C98_applications h rest _).2 hr]
      rw [if_neg (by simp), if_pos hs]

/-- C98: device management packets. -/
theorem C98_dm (d : Bytes) (cs : Bool) (prio : Prio) (r : Py DM) : decodeDM d cs prio = r ↔ DmAt cs prio d r := by
  constructor
  · rintro rfl
    match d with
    | [] => exact .short _ (by simp)
    | [_] => exact .short _ (by simp)
    | p :: z :: rest =>
      by_cases hz : z = 0
      · subst hz
        match rest with
        | [] => exact .noValue p
        | [v] => exact .packet p v
        | v :: x :: rest =>
          have : decodeDM (p :: 0 :: v :: x :: rest) cs prio = .error .valueError := by
            simp [decodeDM, byteAt, bind, Except.bind, throw, throwThe, MonadExceptOf.throw]
          rw [this]
          exact .long p v x rest
      · have : decodeDM (p :: z :: rest) cs prio = .error .valueError := by
          simp [decodeDM, byteAt, bind, Except.bind, hz, throw, throwThe, MonadExceptOf.throw]
        rw [this]
        exact .zero p z rest hz
  · intro h
    cases h with
    | packet p v => rfl
    | short _ h =>
      match d, h with
      | [], _ => rfl
      | [_], _ => rfl
    | zero p z rest hz => simp [decodeDM, byteAt, bind, Except.bind, hz, throw, throwThe, MonadExceptOf.throw]
    | noValue p => rfl
    | long p v x rest => simp [decodeDM, byteAt, bind, Except.bind, throw, throwThe, MonadExceptOf.throw]

theorem bridgeLength_eq (c : UInt8) :
    (∀ n, bridgeLength c = .ok n ↔ n ≤ 5 ∧ c.toNat = 9 * (n + 1)) ∧
    ((∀ n ≤ 5, c.toNat ≠ 9 * (n + 1)) → bridgeLength c = .error .keyError) := by
  have key : ∀ c : UInt8, (∃ n ≤ 5, c.toNat = 9 * (n + 1) ∧ bridgeLength c = .ok n) ∨
      ((∀ n ≤ 5, c.toNat ≠ 9 * (n + 1)) ∧ bridgeLength c = .error .keyError) := by
    have : ∀ c : UInt8, (∃ n < 6, c.toNat = 9 * (n + 1) ∧ bridgeLength c = .ok n) ∨
        ((∀ n < 6, c.toNat ≠ 9 * (n + 1)) ∧ bridgeLength c = .error .keyError) := by
      apply forall_byte; decide +kernel
    intro c
    rcases this c with ⟨n, h1, h2⟩ | ⟨h1, h2⟩
    · exact .inl ⟨n, by omega, h2⟩
    · exact .inr ⟨fun n hn => h1 n (by omega), h2⟩
  rcases key c with ⟨n, h1, h2, h3⟩ | ⟨h1, h2⟩
  · refine ⟨fun m => ?_, fun h => absurd h2 (h n h1)⟩
    rw [h3]
    simp only [Except.ok.injEq]
    constructor
    · rintro rfl
      exact ⟨h1, h2⟩
    · intro h
      omega
  · refine ⟨fun m => ?_, fun _ => h2⟩
    rw [h2]
    simp only [reduceCtorEq, false_iff, not_and]
    exact h1 m

theorem takeHops_short : ∀ (n : Nat) (d : Bytes), d.length < n → takeHops n d = .error .indexError
  | n + 1, [], _ => rfl
  | n + 1, b :: rest, h => by
    rw [takeHops, takeHops_short n rest (by simpa using h)]

theorem takeHops_append : ∀ (hops rest : Bytes),
    takeHops hops.length (hops ++ rest) = .ok (hops.map (fun x => (x.toNat : Int)), rest)
  | [], rest => rfl
  | b :: hops, rest => by
    simp only [List.length_cons, List.cons_append, takeHops, takeHops_append hops rest, List.map_cons]

/-- C98: point to point packets. -/
theorem C98_pp (d : Bytes) (cs : Bool) (prio : Prio) (r : Py PP) : decodePP d cs prio = r ↔ PpAt cs prio d r := by
  have direct : ∀ (u : UInt8) (rest : Bytes), decodePP (u :: 0 :: rest) cs prio = (decodeCals rest).map fun cals =>
      { checksum := cs, prio := prio, unit := u.toNat, hops := [], bridged := false, cals := cals, conf := none,
        src := none } := by
    intro u rest
    simp only [decodePP, byteAt, List.getElem?_cons_zero, List.getElem?_cons_succ, bind, Except.bind, if_true,
      List.drop_succ_cons, List.drop_zero]
    cases decodeCals rest with
    | error e => rfl
    | ok cals => simp [mkPP, Except.map]
  have route : ∀ (b x : UInt8) (rest : Bytes), x ≠ 0 → (∀ n ≤ 5, x.toNat ≠ 9 * (n + 1)) →
      decodePP (b :: x :: rest) cs prio = .error .keyError := by
    intro b x rest h0 h
    simp only [decodePP, byteAt, List.getElem?_cons_zero, List.getElem?_cons_succ, bind, Except.bind]
    rw [if_neg h0, (bridgeLength_eq x).2 h]
  have nz : ∀ (x : UInt8) (n : Nat), x.toNat = 9 * (n + 1) → x ≠ 0 := by
    rintro x n h rfl
    simp at h
  have short : ∀ (b x : UInt8) (rest : Bytes) (n : Nat), n ≤ 5 → x.toNat = 9 * (n + 1) → rest.length ≤ n →
      decodePP (b :: x :: rest) cs prio = .error .indexError := by
    intro b x rest n hn h hl
    simp only [decodePP, byteAt, List.getElem?_cons_zero, List.getElem?_cons_succ, bind, Except.bind]
    rw [if_neg (nz x n h), ((bridgeLength_eq x).1 n).2 ⟨hn, h⟩]
    simp only [List.drop_succ_cons, List.drop_zero]
    rcases Nat.lt_or_ge rest.length n with hlt | hge
    · rw [takeHops_short n rest hlt]
    · obtain rfl : rest.length = n := by omega
      have := takeHops_append rest []
      rw [List.append_nil] at this
      rw [this]
      rfl
  have bridged : ∀ (b x : UInt8) (hops : Bytes) (u : UInt8) (rest : Bytes), hops.length ≤ 5 →
      x.toNat = 9 * (hops.length + 1) → decodePP (b :: x :: (hops ++ u :: rest)) cs prio =
        match decodeCals rest with
        | .error e => .error e
        | .ok cals => if b = 0 then .error .valueError else .ok
          { checksum := cs, prio := prio, unit := u.toNat, hops := hops.map fun x => (x.toNat : Int), bridged := true,
            cals := cals, conf := none, src := none } := by
    intro b x hops u rest hn h
    simp only [decodePP, byteAt, List.getElem?_cons_zero, List.getElem?_cons_succ, bind, Except.bind]
    rw [if_neg (nz x _ h), ((bridgeLength_eq x).1 _).2 ⟨hn, h⟩]
    simp only [List.drop_succ_cons, List.drop_zero]
    rw [takeHops_append]
    simp only [List.getElem?_cons_zero, List.drop_succ_cons, List.drop_zero]
    cases decodeCals rest with
    | error e => rfl
    | ok cals =>
      simp only [mkPP]
      by_cases hb : b = 0
      · subst hb; rfl
      · have : ¬ ((b.toNat : Nat) : Int) ≤ 0 := by
          intro h
          apply hb
          apply UInt8.toNat_inj.1
          simp
          omega
        rw [if_neg this, if_neg hb]
  constructor
  · rintro rfl
    match d with
    | [] => exact .short _ (by simp)
    | [_] => exact .short _ (by simp)
    | b :: x :: rest =>
      by_cases h0 : x = 0
      · subst h0
        rw [direct]
        exact .direct b rest _ ((C98_cals rest _).1 rfl)
      · by_cases hr : ∀ n ≤ 5, x.toNat ≠ 9 * (n + 1)
        · rw [route b x rest h0 hr]
          exact .route b x rest h0 hr
        · obtain ⟨n, hn, hx⟩ : ∃ n ≤ 5, x.toNat = 9 * (n + 1) := by
            rcases Classical.em (∃ n ≤ 5, x.toNat = 9 * (n + 1)) with h | h
            · exact h
            · exact absurd (fun n hn hx => h ⟨n, hn, hx⟩) hr
          by_cases hl : rest.length ≤ n
          · rw [short b x rest n hn hx hl]
            exact .shortRoute b x rest n hn hx hl
          · obtain ⟨hops, u, rest', rfl, hlen⟩ : ∃ hops u rest', rest = hops ++ u :: rest' ∧ hops.length = n := by
              have hd : rest.drop n ≠ [] := by
                intro h
                have := congrArg List.length h
                simp at this
                omega
              obtain ⟨u, rest', hu⟩ := List.exists_cons_of_ne_nil hd
              exact ⟨rest.take n, u, rest', by rw [← hu, List.take_append_drop], by simp; omega⟩
            subst hlen
            rw [bridged b x hops u rest' hn hx]
            cases hc : decodeCals rest' with
            | error e => exact .refused b x hops u rest' hn hx e ((C98_cals _ _).1 hc)
            | ok cals =>
              simp only
              by_cases hb : b = 0
              · subst hb
                rw [if_pos rfl]
                exact .noBridge x hops u rest' hn hx cals ((C98_cals _ _).1 hc)
              · rw [if_neg hb]
                exact .bridged b x hops u rest' hb hn hx cals ((C98_cals _ _).1 hc)
  · intro h
    cases h with
    | short _ h =>
      match d, h with
      | [], _ => rfl
      | [_], _ => rfl
    | direct u rest r hr => rw [direct, (C98_cals rest r).2 hr]
    | route b x rest h0 h => exact route b x rest h0 h
    | shortRoute b x rest n hn h hl => exact short b x rest n hn h hl
    | refused b x hops u rest hn h e hr => rw [bridged b x hops u rest hn h, (C98_cals _ _).2 hr]
    | noBridge x hops u rest hn h cals hr => rw [bridged 0 x hops u rest hn h, (C98_cals _ _).2 hr]; rfl
    | bridged b x hops u rest hb hn h cals hr =>
      rw [bridged b x hops u rest hn h, (C98_cals _ _).2 hr]
      simp [hb]

/-! ## Messages -/

theorem dispatch_iff (f : UInt8) (dat : DAT) (hd : DAT.ofCode (f &&& 0x07) = .ok dat) (dm cs : Bool) (d : Bytes)
    (r : Py (Packet × Nat)) : dispatch dat (f &&& 0x20 == 0x20) dm d cs (Prio.ofBits (f >>> 6 &&& 0x03)) = r ↔
      PayloadAt cs dm f d r := by
  have hbit : (f &&& 0x20 == 0x20) = decide (f.toNat / 32 % 2 = 1) := by
    clear hd; revert f; apply forall_byte; decide +kernel
  have hprio : Prio.ofBits (f >>> 6 &&& 0x03) = prioOf f := by
    clear hd hbit; revert f; apply forall_byte; decide +kernel
  have hdat : f.toNat % 8 = dat.code.toNat := by
    have : ∀ f : UInt8, ∀ dat ∈ [DAT.unset, .ppm, .pm, .pp], DAT.ofCode (f &&& 0x07) = .ok dat →
        f.toNat % 8 = dat.code.toNat := by apply forall_byte; decide +kernel
    exact this f dat (by cases dat <;> simp) hd
  rw [hbit, hprio]
  rcases Nat.mod_two_eq_zero_or_one (f.toNat / 32) with hf | hf
  · have e1 : decide (f.toNat / 32 % 2 = 1) = false := by rw [hf]; rfl
    rw [e1]
    cases dm with
    | true =>
      have e2 : dispatch dat false true d cs (prioOf f) = (decodeCal d).map fun c => (.cal c.1, c.2) := by
        unfold dispatch
        rw [if_neg (by simp), if_pos rfl]
        cases decodeCal d <;> rfl
      rw [e2]
      constructor
      · rintro rfl
        cases hc : decodeCal d with
        | error e => exact .calRefused d e hf rfl (((C98_cal d).2 e).1 hc)
        | ok c => exact .cal d c.1 c.2 hf rfl (((C98_cal d).1 c.1 c.2).1 hc)
      · intro h
        cases h with
        | dm _ h => omega
        | cal c n _ _ hc => rw [((C98_cal d).1 c n).2 hc]; rfl
        | calRefused e _ _ hc => rw [((C98_cal d).2 e).2 hc]; rfl
        | pp _ _ h => cases h
        | pm _ _ h => cases h
        | other _ h => cases h
    | false =>
      cases dat with
      | pp =>
        have e2 : dispatch .pp false false d cs (prioOf f) = (decodePP d cs (prioOf f)).map fun p => (.pp p, 0) := by
          unfold dispatch
          cases decodePP d cs (prioOf f) <;> rfl
        rw [e2]
        constructor
        · rintro rfl
          exact .pp d _ hf rfl hdat ((C98_pp d cs _ _).1 rfl)
        · intro h
          cases h with
          | dm _ h => omega
          | cal _ _ _ h => cases h
          | calRefused _ _ h => cases h
          | pp r _ _ _ hr => rw [(C98_pp d cs _ r).2 hr]
          | pm _ _ _ h => rw [h] at hdat; exact absurd hdat (by decide)
          | other _ _ h => rw [hdat] at h; exact absurd h (by decide)
      | pm =>
        have e2 : dispatch .pm false false d cs (prioOf f) = (decodePM d cs (prioOf f)).map fun p => (.pm p, 0) := by
          unfold dispatch
          cases decodePM d cs (prioOf f) <;> rfl
        rw [e2]
        constructor
        · rintro rfl
          exact .pm d _ hf rfl hdat ((C98_pm d cs _ _).1 rfl)
        · intro h
          cases h with
          | dm _ h => omega
          | cal _ _ _ h => cases h
          | calRefused _ _ h => cases h
          | pm r _ _ _ hr => rw [(C98_pm d cs _ r).2 hr]
          | pp _ _ _ h => rw [h] at hdat; exact absurd hdat (by decide)
          | other _ _ h => rw [hdat] at h; exact absurd h (by decide)
      | ppm =>
        constructor
        · rintro rfl
          exact .other d hf rfl (.inl hdat)
        · intro h
          cases h with
          | dm _ h => omega
          | cal _ _ _ h => cases h
          | calRefused _ _ h => cases h
          | pm _ _ _ h => rw [h] at hdat; exact absurd hdat (by decide)
          | pp _ _ _ h => rw [h] at hdat; exact absurd hdat (by decide)
          | other => rfl
      | unset =>
        constructor
        · rintro rfl
          exact .other d hf rfl (.inr hdat)
        · intro h
          cases h with
          | dm _ h => omega
          | cal _ _ _ h => cases h
          | calRefused _ _ h => cases h
          | pm _ _ _ h => rw [h] at hdat; exact absurd hdat (by decide)
          | pp _ _ _ h => rw [h] at hdat; exact absurd hdat (by decide)
          | other => rfl
  · have e1 : decide (f.toNat / 32 % 2 = 1) = true := by rw [hf]; rfl
    have e2 : dispatch dat true dm d cs (prioOf f) = (decodeDM d cs (prioOf f)).map fun p => (.dm p, 0) := by
      unfold dispatch
      cases decodeDM d cs (prioOf f) <;> rfl
    rw [e1, e2]
    constructor
    · rintro rfl
      exact .dm d _ hf ((C98_dm d cs _ _).1 rfl)
    · intro h
      cases h with
      | dm r _ hr => rw [(C98_dm d cs _ r).2 hr]
      | cal _ _ h => omega
      | calRefused _ h => omega
      | pp _ h => omega
      | pm _ h => omega
      | other h => omega

theorem datOf (f : UInt8) : (f.toNat % 8 ∈ [0, 3, 5, 6] ∧ ∃ dat, DAT.ofCode (f &&& 0x07) = .ok dat) ∨
    (f.toNat % 8 ∉ [0, 3, 5, 6] ∧ DAT.ofCode (f &&& 0x07) = .error .valueError) := by
  have : ∀ f : UInt8, (f.toNat % 8 ∈ [0, 3, 5, 6] ∧ ∃ dat ∈ [DAT.unset, .ppm, .pm, .pp], DAT.ofCode (f &&& 0x07) = .ok dat) ∨
      (f.toNat % 8 ∉ [0, 3, 5, 6] ∧ DAT.ofCode (f &&& 0x07) = .error .valueError) := by
    apply forall_byte; decide +kernel
  rcases this f with ⟨h, dat, -, h'⟩ | h
  · exact .inl ⟨h, dat, h'⟩
  · exact .inr h

/-- A decoded payload has neither source nor confirmation. -/
theorem payload_bare {cs dm : Bool} {f : UInt8} {d : Bytes} {p : Packet} {n : Nat}
    (h : PayloadAt cs dm f d (.ok (p, n))) : addressed none none p = p := by
  generalize hr : (Except.ok (p, n) : Py (Packet × Nat)) = r at h
  cases h with
  | dm r _ h =>
    cases h <;> simp [Except.map] at hr
    obtain ⟨rfl, -⟩ := hr; rfl
  | cal c n =>
    simp at hr
    obtain ⟨rfl, -⟩ := hr; rfl
  | calRefused => simp at hr
  | pp r _ _ _ h =>
    cases h with
    | direct u rest r =>
      cases r <;> simp [Except.map] at hr
      obtain ⟨rfl, -⟩ := hr; rfl
    | bridged =>
      simp [Except.map] at hr
      obtain ⟨rfl, -⟩ := hr; rfl
    | _ => simp [Except.map] at hr
  | pm r _ _ _ h =>
    cases h <;> simp [Except.map] at hr
    obtain ⟨rfl, -⟩ := hr; rfl
  | other => simp at hr

theorem attach_event {cs dm : Bool} {f : UInt8} {d : Bytes} {p : Packet} {n : Nat}
    (h : PayloadAt cs dm f d (.ok (p, n))) (s : UInt8) (conf : Option UInt8) :
    attach true conf (some s) p = addressed (if s = 0 then none else some s.toNat) none p := by
  by_cases hs : s = 0
  · subst hs
    rw [if_pos rfl, payload_bare h]
    simp [attach]
  · rw [if_neg hs]
    cases p <;> simp [attach, addressed, hs]

/-- C98: messages from the PCI. -/
theorem C98_event (m : Bytes) (c : Nat) (cs : Bool) (conf : Option UInt8) (x : Option Packet) (n : Nat) :
    decodeBody m c cs true false conf = .ok (x, n) ↔ ∃ r, EventAt cs m r ∧ x = some r.1 ∧ n = c + r.2 := by
  match m with
  | [] =>
    simp only [decodeBody, reduceCtorEq, false_iff, not_exists]
    rintro r ⟨h, -⟩
    cases h
  | f :: m =>
    simp only [decodeBody, if_true]
    rcases datOf f with ⟨hf, dat, hd⟩ | ⟨hf, hd⟩
    · simp only [hd]
      match m with
      | [] =>
        simp only [Except.ok.injEq, Prod.mk.injEq]
        constructor
        · rintro ⟨rfl, rfl⟩
          exact ⟨_, .short f hf, rfl, rfl⟩
        · rintro ⟨r, h, rfl, rfl⟩
          cases h with
          | type _ _ h => exact absurd hf h
          | short => exact ⟨rfl, rfl⟩
      | s :: d =>
        simp only
        have hp := dispatch_iff f dat hd false cs d
        cases hr : dispatch dat (f &&& 0x20 == 0x20) false d cs (Prio.ofBits (f >>> 6 &&& 0x03)) with
        | error e =>
          simp only [Except.ok.injEq, Prod.mk.injEq]
          constructor
          · rintro ⟨rfl, rfl⟩
            exact ⟨_, .refused f s d hf e ((hp _).1 hr), rfl, rfl⟩
          · rintro ⟨r, h, rfl, rfl⟩
            cases h with
            | type _ _ h => exact absurd hf h
            | refused _ _ _ _ e' h =>
              have := (hp _).2 h
              rw [hr] at this
              cases this
              exact ⟨rfl, rfl⟩
            | packet _ _ _ _ p k h =>
              have := (hp _).2 h
              rw [hr] at this
              cases this
        | ok q =>
          obtain ⟨p, k⟩ := q
          simp only [Except.ok.injEq, Prod.mk.injEq]
          have h0 := (hp _).1 hr
          rw [attach_event h0]
          constructor
          · rintro ⟨rfl, rfl⟩
            exact ⟨_, .packet f s d hf p k h0, rfl, rfl⟩
          · rintro ⟨r, h, rfl, rfl⟩
            cases h with
            | type _ _ h => exact absurd hf h
            | refused _ _ _ _ e' h =>
              have := (hp _).2 h
              rw [hr] at this
              cases this
            | packet _ _ _ _ p k h =>
              have := (hp _).2 h
              rw [hr] at this
              cases this
              exact ⟨rfl, rfl⟩
    · simp only [hd, Except.ok.injEq, Prod.mk.injEq]
      constructor
      · rintro ⟨rfl, rfl⟩
        exact ⟨_, .type f m hf, rfl, rfl⟩
      · rintro ⟨r, h, rfl, rfl⟩
        cases h with
        | type => exact ⟨rfl, rfl⟩
        | short _ h => exact absurd h hf
        | refused _ _ _ h => exact absurd h hf
        | packet _ _ _ h => exact absurd h hf

/-- C98: messages to the PCI. -/
theorem C98_command (m : Bytes) (c : Nat) (cs dm : Bool) (conf : Option UInt8) (x : Option Packet) (n : Nat) :
    decodeBody m c cs false dm conf = .ok (x, n) ↔ ∃ r, CommandAt cs dm conf m r ∧ x = some r.1 ∧ n = c + r.2 := by
  match m with
  | [] =>
    simp only [decodeBody, reduceCtorEq, false_iff, not_exists]
    rintro r ⟨h, -⟩
    cases h
  | f :: d =>
    simp only [decodeBody]
    rcases datOf f with ⟨hf, dat, hd⟩ | ⟨hf, hd⟩
    · simp only [hd, Bool.false_eq_true, if_false]
      have hp := dispatch_iff f dat hd dm cs d
      cases hr : dispatch dat (f &&& 0x20 == 0x20) dm d cs (Prio.ofBits (f >>> 6 &&& 0x03)) with
      | error e =>
        simp only [Except.ok.injEq, Prod.mk.injEq]
        constructor
        · rintro ⟨rfl, rfl⟩
          exact ⟨_, .refused f d hf e ((hp _).1 hr), rfl, rfl⟩
        · rintro ⟨r, h, rfl, rfl⟩
          cases h with
          | type _ _ h => exact absurd hf h
          | refused _ _ _ e' h =>
            have := (hp _).2 h
            rw [hr] at this
            cases this
            exact ⟨rfl, rfl⟩
          | packet _ _ _ p k h =>
            have := (hp _).2 h
            rw [hr] at this
            cases this
      | ok q =>
        obtain ⟨p, k⟩ := q
        simp only [Except.ok.injEq, Prod.mk.injEq]
        have h0 := (hp _).1 hr
        have ha : attach false conf none p = addressed none conf p := by cases p <;> rfl
        rw [ha]
        constructor
        · rintro ⟨rfl, rfl⟩
          exact ⟨_, .packet f d hf p k h0, rfl, rfl⟩
        · rintro ⟨r, h, rfl, rfl⟩
          cases h with
          | type _ _ h => exact absurd hf h
          | refused _ _ _ e' h =>
            have := (hp _).2 h
            rw [hr] at this
            cases this
          | packet _ _ _ p k h =>
            have := (hp _).2 h
            rw [hr] at this
            cases this
            exact ⟨rfl, rfl⟩
    · simp only [hd, Except.ok.injEq, Prod.mk.injEq]
      constructor
      · rintro ⟨rfl, rfl⟩
        exact ⟨_, .type f d hf, rfl, rfl⟩
      · rintro ⟨r, h, rfl, rfl⟩
        cases h with
        | type => exact ⟨rfl, rfl⟩
        | refused _ _ h => exact absurd h hf
        | packet _ _ h => exact absurd h hf

theorem raw_iff {body : Bytes → Packet × Nat → Prop} {cs strict fp dm : Bool} {conf : Option UInt8} {c : Nat}
    (hb : ∀ m x n, decodeBody m c cs fp dm conf = .ok (x, n) ↔ ∃ r, body m r ∧ x = some r.1 ∧ n = c + r.2)
    (m : Bytes) (x : Option Packet) (n : Nat) : decodeRaw m c cs strict fp dm conf = .ok (x, n) ↔
      ∃ r, MessageAt cs strict body m r ∧ x = some r.1 ∧ n = c + r.2 := by
  cases cs with
  | false =>
    simp only [decodeRaw, Bool.false_eq_true, if_false]
    rw [hb]
    constructor
    · rintro ⟨r, h, hr⟩
      exact ⟨r, .unchecked m r rfl h, hr⟩
    · rintro ⟨r, h, hr⟩
      cases h with
      | unchecked _ _ _ h => exact ⟨r, h, hr⟩
      | wrong _ h => cases h
      | checked _ _ _ h => cases h
  | true =>
    simp only [decodeRaw, if_true]
    by_cases hm : m = []
    · subst hm
      simp only [show validateChecksum [] = .error .indexError from rfl, reduceCtorEq, false_iff, not_exists]
      rintro r ⟨h, -⟩
      generalize hm : ([] : Bytes) = m at h
      cases h with
      | unchecked _ _ h => cases h
      | wrong _ _ _ h => exact h (by subst hm; rfl)
      | checked m x => simp at hm
    · rw [validateChecksum_eq hm]
      simp only
      by_cases hz : SumsToZero m
      · have hz' := (sumsToZero_iff m).1 hz
        simp only [hz', decide_true, Bool.not_true, Bool.false_and, Bool.false_eq_true, if_false]
        rw [hb]
        have hsplit := List.dropLast_concat_getLast hm
        constructor
        · rintro ⟨r, h, hr⟩
          refine ⟨r, ?_, hr⟩
          have := MessageAt.checked (checksum := true) (strict := strict) m.dropLast (m.getLast hm) r rfl
            (fun _ => by rw [hsplit]; exact hz) h
          rwa [hsplit] at this
        · rintro ⟨r, h, hr⟩
          cases h with
          | unchecked _ _ h => cases h
          | wrong _ _ _ h => exact absurd hz h
          | checked m x _ _ _ h => exact ⟨r, by simpa using h, hr⟩
      · have hz' : ¬ sumBytes m % 256 = 0 := fun h => hz ((sumsToZero_iff m).2 h)
        simp only [hz', decide_false, Bool.not_false, Bool.true_and]
        cases strict with
        | true =>
          simp only [if_true, Except.ok.injEq, Prod.mk.injEq]
          constructor
          · rintro ⟨rfl, rfl⟩
            exact ⟨_, .wrong m rfl rfl hz, rfl, rfl⟩
          · rintro ⟨r, h, rfl, rfl⟩
            cases h with
            | unchecked _ _ h => cases h
            | wrong => exact ⟨rfl, rfl⟩
            | checked m x _ _ h => exact absurd (h rfl) hz
        | false =>
          simp only [Bool.false_eq_true, if_false]
          rw [hb]
          have hsplit := List.dropLast_concat_getLast hm
          constructor
          · rintro ⟨r, h, hr⟩
            refine ⟨r, ?_, hr⟩
            have := MessageAt.checked (checksum := true) (strict := false) m.dropLast (m.getLast hm) r rfl
              (fun h => nomatch h) h
            rwa [hsplit] at this
          · rintro ⟨r, h, hr⟩
            cases h with
            | unchecked _ _ h => cases h
            | wrong _ _ h => cases h
            | checked m x _ _ _ h => exact ⟨r, by simpa using h, hr⟩

theorem hexVal_digit (c : UInt8) : (HexDigit c ∧ hexVal c = some (digitOf c) ∧ digitOf c < 16) ∨
    (¬ HexDigit c ∧ hexVal c = none) := by
  unfold HexDigit hexVal digitOf
  by_cases h1 : 48 ≤ c.toNat ∧ c.toNat ≤ 57
  · left
    rw [if_pos h1, if_pos (by omega)]
    exact ⟨.inl h1, rfl, by omega⟩
  · rw [if_neg h1]
    by_cases h2 : 65 ≤ c.toNat ∧ c.toNat ≤ 70
    · left
      rw [if_pos h2, if_neg (by omega)]
      exact ⟨.inr h2, rfl, by omega⟩
    · right
      rw [if_neg h2]
      exact ⟨by omega, rfl⟩

theorem b16decode_iff : ∀ (t m : Bytes), b16decode t = .ok m ↔ HexPairs t m
  | [], m => by
    simp only [b16decode, Except.ok.injEq]
    constructor
    · rintro rfl; exact .nil
    · intro h; cases h; rfl
  | [_], m => by
    simp only [b16decode, reduceCtorEq, false_iff]
    intro h; cases h
  | a :: b :: t, m => by
    simp only [b16decode]
    rcases hexVal_digit a with ⟨ha, ha', hl⟩ | ⟨ha, ha'⟩
    · rcases hexVal_digit b with ⟨hb, hb', hk⟩ | ⟨hb, hb'⟩
      · simp only [ha', hb']
        constructor
        · intro h
          cases ht : b16decode t with
          | error e => rw [ht] at h; cases h
          | ok r =>
            rw [ht] at h
            cases h
            refine .cons a b _ t r ha hb ?_ ((b16decode_iff t r).1 ht)
            rw [UInt8.toNat_ofNat']
            omega
        · intro h
          cases h with
          | cons _ _ x _ r _ _ hx h =>
            rw [(b16decode_iff t r).2 h]
            have : UInt8.ofNat (digitOf a * 16 + digitOf b) = x := by
              apply UInt8.toNat_inj.1
              rw [UInt8.toNat_ofNat']
              omega
            rw [this]
      · simp only [ha', hb', reduceCtorEq, false_iff]
        intro h
        cases h with
        | cons _ _ _ _ _ _ h => exact hb h
    · simp only [ha', reduceCtorEq, false_iff]
      intro h
      cases h with
      | cons _ _ _ _ _ h => exact ha h

theorem hexPairs_digits {t m : Bytes} (h : HexPairs t m) : ∀ c ∈ t, HexDigit c := by
  induction h with
  | nil => simp
  | cons a b x t m ha hb _ _ ih => simp [ha, hb]; exact ih

theorem hex_iff {message : Bytes → Packet × Nat → Prop} {cs strict fp dm : Bool} {conf : Option UInt8} {c : Nat}
    (hm : ∀ m x n, decodeRaw m c cs strict fp dm conf = .ok (x, n) ↔ ∃ r, message m r ∧ x = some r.1 ∧ n = c + r.2)
    (t : Bytes) (x : Option Packet) (n : Nat) : decodeHex t c cs strict fp dm conf = .ok (x, n) ↔
      ∃ r, TextAt message t r ∧ x = some r.1 ∧ n = c + r.2 := by
  unfold decodeHex
  by_cases h : ∀ c ∈ t, HexDigit c
  · rw [if_pos ((all_isHex_iff t).2 h)]
    constructor
    · intro hr
      cases hd : b16decode t with
      | error e => rw [hd] at hr; cases hr
      | ok m =>
        rw [hd] at hr
        obtain ⟨r, h1, h2⟩ := (hm m x n).1 hr
        exact ⟨r, .digits t m r ((b16decode_iff t m).1 hd) h1, h2⟩
    · rintro ⟨r, h1, h2⟩
      cases h1 with
      | text h' =>
        obtain ⟨c, hc, hn⟩ := h'
        exact absurd (h c hc) hn
      | digits m _ hp h1 =>
        rw [(b16decode_iff t m).2 hp]
        exact (hm m x n).2 ⟨r, h1, h2⟩
  · rw [if_neg (fun h' => h ((all_isHex_iff t).1 h'))]
    have hex : ∃ c ∈ t, ¬ HexDigit c := by
      rcases Classical.em (∃ c ∈ t, ¬ HexDigit c) with h' | h'
      · exact h'
      · exact absurd (fun c hc => Classical.byContradiction fun hn => h' ⟨c, hc, hn⟩) h
    simp only [Except.ok.injEq, Prod.mk.injEq]
    constructor
    · rintro ⟨rfl, rfl⟩
      exact ⟨_, .text t hex, rfl, rfl⟩
    · rintro ⟨r, h1, rfl, rfl⟩
      cases h1 with
      | text => exact ⟨rfl, rfl⟩
      | digits m _ hp => exact absurd (hexPairs_digits hp) h

theorem code_iff (c : UInt8) : c ∈ confirmationCodes ↔ 0x67 ≤ c.toNat ∧ c.toNat ≤ 0x7a := by
  revert c; apply forall_byte; decide +kernel

theorem conf_iff (t : Bytes) (c : Nat) (cs strict dm : Bool) (x : Option Packet) (n : Nat) :
    decodeConf t c cs strict dm = .ok (x, n) ↔ ∃ r, ConfAt cs strict dm t r ∧ x = some r.1 ∧ n = c + r.2 := by
  have hx : ∀ conf t x n, decodeHex t c cs strict false dm conf = .ok (x, n) ↔
      ∃ r, TextAt (MessageAt cs strict (CommandAt cs dm conf)) t r ∧ x = some r.1 ∧ n = c + r.2 := fun conf t x n =>
    hex_iff (raw_iff fun m x n => C98_command m c cs dm conf x n) t x n
  rcases List.eq_nil_or_concat t with rfl | ⟨t, l, rfl⟩
  · simp only [decodeConf, List.getLast?_nil, reduceCtorEq, false_iff, not_exists]
    rintro r ⟨h, -⟩
    generalize ht : ([] : Bytes) = t at h
    cases h with
    | plain _ _ _ h => subst ht; cases h
    | code => simp at ht
    | badCode => simp at ht
  · simp only [decodeConf, List.concat_eq_append, List.getLast?_append, List.getLast?_singleton, Option.some_or,
      List.dropLast_concat]
    by_cases hl : HexDigit l
    · rw [if_pos ((isHex_iff l).2 hl), hx]
      constructor
      · rintro ⟨r, h, hr⟩
        exact ⟨r, .plain _ l r (by simp) hl h, hr⟩
      · rintro ⟨r, h, hr⟩
        generalize ht : t ++ [l] = t' at h
        cases h with
        | plain _ _ _ _ _ h => exact ⟨r, h, hr⟩
        | code t'' l' _ h =>
          have := (List.append_inj' ht rfl).2
          simp at this
          subst this
          exact absurd hl h
        | badCode t'' l' h =>
          have := (List.append_inj' ht rfl).2
          simp at this
          subst this
          exact absurd hl h
    · rw [if_neg (fun h => hl ((isHex_iff l).1 h))]
      by_cases hc : l ∉ confirmationCodes ∧ strict = true
      · rw [if_pos hc]
        obtain ⟨h1, h2⟩ := hc
        rw [code_iff] at h1
        simp only [Except.ok.injEq, Prod.mk.injEq]
        constructor
        · rintro ⟨rfl, rfl⟩
          exact ⟨_, .badCode t l hl h2 h1, rfl, rfl⟩
        · rintro ⟨r, h, rfl, rfl⟩
          generalize ht : t ++ [l] = t' at h
          cases h with
          | plain _ l' _ h h' =>
            rw [← ht] at h
            simp at h
            subst h
            exact absurd h' hl
          | code t'' l' _ _ h =>
            have := (List.append_inj' ht rfl).2
            simp at this
            subst this
            exact absurd (h h2) h1
          | badCode => exact ⟨rfl, rfl⟩
      · rw [if_neg hc, hx]
        have hc' : strict = true → 0x67 ≤ l.toNat ∧ l.toNat ≤ 0x7a := by
          intro hs
          rw [← code_iff]
          exact Classical.byContradiction fun h => hc ⟨h, hs⟩
        constructor
        · rintro ⟨r, h, hr⟩
          exact ⟨r, .code t l r hl hc' h, hr⟩
        · rintro ⟨r, h, hr⟩
          generalize ht : t ++ [l] = t' at h
          cases h with
          | plain _ l' _ h h' =>
            rw [← ht] at h
            simp at h
            subst h
            exact absurd h' hl
          | code t'' l' _ _ _ h =>
            obtain ⟨rfl, h'⟩ := List.append_inj' ht rfl
            simp at h'
            subst h'
            exact ⟨r, h, hr⟩
          | badCode t'' l' _ hs h =>
            have := (List.append_inj' ht rfl).2
            simp at this
            subst this
            exact absurd (hc' hs) h

/-- C98: a line from the PCI. -/
theorem C98_event_line (l : Bytes) (c : Nat) (cs strict : Bool) (x : Option Packet) (n : Nat) :
    decodeLine l c cs strict true = .ok (x, n) ↔
      (l = [] ∧ x = none ∧ n = c) ∨ ∃ r, LineFromPci cs strict l r ∧ x = some r.1 ∧ n = c + r.2 := by
  have hx : ∀ t x n, decodeHex t c cs strict true false none = .ok (x, n) ↔
      ∃ r, LineFromPci cs strict t r ∧ x = some r.1 ∧ n = c + r.2 := fun t x n =>
    hex_iff (raw_iff fun m x n => C98_event m c cs none x n) t x n
  match l with
  | [] =>
    have hno : ∀ r, ¬ LineFromPci cs strict [] r := by
      intro r h
      have := (hx [] (some r.1) (c + r.2)).2 ⟨r, h, rfl, rfl⟩
      cases cs <;> simp [decodeHex, b16decode, decodeRaw, decodeBody, validateChecksum] at this
    simp only [decodeLine, Except.ok.injEq, Prod.mk.injEq, true_and]
    constructor
    · rintro ⟨rfl, rfl⟩
      exact .inl ⟨rfl, rfl⟩
    · rintro (⟨rfl, rfl⟩ | ⟨r, h, -⟩)
      · exact ⟨rfl, rfl⟩
      · exact absurd h (hno r)
  | a :: l =>
    simp only [decodeLine, if_true]
    rw [hx]
    simp

/-- C98: a line to the PCI. -/
theorem C98_command_line (l : Bytes) (c : Nat) (cs strict : Bool) (x : Option Packet) (n : Nat) :
    decodeLine l c cs strict false = .ok (x, n) ↔
      (l = [] ∧ x = none ∧ n = c) ∨ ∃ r, LineToPci cs strict l r ∧ x = some r.1 ∧ n = c + r.2 := by
  match l with
  | [] =>
    have hno : ∀ r, ¬ LineToPci cs strict [] r := by
      intro r h
      cases h with
      | direct _ _ _ _ h =>
        have := (conf_iff [] c cs strict true (some r.1) (c + r.2)).2 ⟨r, h, rfl, rfl⟩
        simp [decodeConf] at this
    simp only [decodeLine, Except.ok.injEq, Prod.mk.injEq, true_and]
    constructor
    · rintro ⟨rfl, rfl⟩
      exact .inl ⟨rfl, rfl⟩
    · rintro (⟨rfl, rfl⟩ | ⟨r, h, -⟩)
      · exact ⟨rfl, rfl⟩
      · exact absurd h (hno r)
  | a :: l =>
    simp only [decodeLine, Bool.false_eq_true, if_false, reduceCtorEq, false_and, false_or]
    by_cases h1 : a = 0x40
    · subst h1
      rw [if_pos rfl, conf_iff]
      constructor
      · rintro ⟨r, h, hr⟩
        exact ⟨r, .basic l r h, hr⟩
      · rintro ⟨r, h, hr⟩
        cases h with
        | basic _ _ h => exact ⟨r, h, hr⟩
        | direct _ _ _ h => simp at h
    · rw [if_neg h1]
      by_cases h2 : a = 0x5c
      · subst h2
        rw [if_pos rfl, conf_iff]
        constructor
        · rintro ⟨r, h, hr⟩
          exact ⟨r, .network l r h, hr⟩
        · rintro ⟨r, h, hr⟩
          cases h with
          | network _ _ h => exact ⟨r, h, hr⟩
          | direct _ _ h => simp at h
      · rw [if_neg h2, conf_iff]
        constructor
        · rintro ⟨r, h, hr⟩
          exact ⟨r, .direct _ r (by simpa using h2) (by simpa using h1) h, hr⟩
        · rintro ⟨r, h, hr⟩
          cases h with
          | network => exact absurd rfl h2
          | basic => exact absurd rfl h1
          | direct _ _ _ _ h => exact ⟨r, h, hr⟩

/-! ## The whole buffer -/

theorem split_crlf (d : Bytes) : ¬ [0x0d, 0x0a] <:+: d ∨ ∃ l rest : Bytes, d = l ++ 0x0d :: 0x0a :: rest ∧ ¬ [0x0d, 0x0a] <:+: l := by
  cases hf : find [0x0d, 0x0a] d with
  | none =>
    left
    rintro ⟨s, t, h⟩
    exact find_pair_none hf s t (by rw [← h]; simp)
  | some n =>
    right
    obtain ⟨h1, h2⟩ := find_pair_split hf
    refine ⟨d.take n, d.drop (n + 2), h1, ?_⟩
    rintro ⟨s, t, h⟩
    have hlen : s.length + 2 ≤ n := by
      have := congrArg List.length h
      simp at this
      omega
    have := (find_some_spec _ _ _ hf).2.2 s.length (by omega)
    have hd : d = s ++ 0x0d :: 0x0a :: (t ++ d.drop n) := by
      have h3 : d = d.take n ++ d.drop n := (List.take_append_drop n d).symm
      rw [← h] at h3
      simpa using h3
    rw [hd] at this
    simp [List.isPrefixOf] at this

theorem pci_line {l : Bytes} (hl : ¬ [0x0d, 0x0a] <:+: l) (hh : ∀ c, l.head? = some c → c ≠ 0x2b ∧ c ≠ 0x21 ∧ ¬ Code c)
    (rest : Bytes) (cs strict : Bool) : decodePacket (l ++ 0x0d :: 0x0a :: rest) cs strict true =
      decodeLine l (l.length + 2) cs strict true := by
  unfold decodePacket
  rw [if_pos rfl, framePci_line_any ⟨hl, fun c hc => ?_⟩]
  obtain ⟨h1, h2, h3⟩ := hh c hc
  exact ⟨h1, h2, fun h => h3 ((code_iff c).1 h)⟩

/-- C98: everything received from the PCI. -/
theorem C98_received (d : Bytes) (cs strict : Bool) (x : Option Packet) (n : Nat) :
    decodePacket d cs strict true = .ok (x, n) ↔ FromPci cs strict d (x, n) := by
  have back : ∀ r, FromPci cs strict d r → decodePacket d cs strict true = .ok r := by
    intro r h
    cases h with
    | powerOn => rfl
    | error => rfl
    | confirmed c rest hc =>
      have h1 := (code_iff c).2 hc
      have h2 : c ≠ 0x2b ∧ c ≠ 0x21 := by
        constructor <;> (rintro rfl; revert h1; decide)
      have h3 : ¬ rest.length + 1 + 1 < 2 := by omega
      simp [decodePacket, framePci, h1, h2, minMessageSize, h3]
    | refused c s rest hc hs =>
      have h1 := (code_iff c).2 hc
      have h2 : c ≠ 0x2b ∧ c ≠ 0x21 := by
        constructor <;> (rintro rfl; revert h1; decide)
      have h3 : ¬ rest.length + 1 + 1 < 2 := by omega
      simp [decodePacket, framePci, h1, h2, hs, minMessageSize, h3]
    | waiting _ h1 h2 h3 h =>
      refine (C34_pci d cs strict).1 ?_
      rintro (h' | h' | ⟨hl, c, hc, h'⟩ | ⟨l, rest, rfl⟩)
      · exact h1 h'
      · exact h2 h'
      · match d, hl, h' with
        | a :: s :: rest, _, h' =>
          simp at h'
          subst h'
          exact h3 a s rest rfl ((code_iff a).1 hc)
      · exact h ⟨l, rest, by simp⟩
    | empty rest =>
      have := pci_line (l := []) (by simp) (by simp) rest cs strict
      simpa [decodeLine] using this
    | line l rest r hl hh h =>
      rw [pci_line hl hh, C98_event_line]
      exact .inr ⟨r, h, rfl, rfl⟩
  constructor
  · intro h
    have go : ∀ y, FromPci cs strict d y → FromPci cs strict d (x, n) := by
      intro y hy
      have := back y hy
      rw [h] at this
      cases this
      exact hy
    match d with
    | [] => exact go _ (.waiting [] (by simp) (by simp) (by simp) (by simp))
    | a :: d =>
      by_cases h1 : a = 0x2b
      · subst h1; exact go _ (.powerOn d)
      by_cases h2 : a = 0x21
      · subst h2; exact go _ (.error d)
      by_cases h3 : Code a
      · match d with
        | [] =>
          refine go _ (.waiting [a] (by simpa using h1) (by simpa using h2) (by simp) ?_)
          intro h
          have := h.length_le
          simp at this
        | s :: d =>
          by_cases hs : s = 0x2e
          · subst hs; exact go _ (.confirmed a d h3)
          · exact go _ (.refused a s d h3 hs)
      rcases split_crlf (a :: d) with hn | ⟨l, rest, hd, hl⟩
      · refine go _ (.waiting _ (by simpa using h1) (by simpa using h2) ?_ hn)
        rintro c s rest he
        simp at he
        rw [← he.1]
        exact h3
      · have hh : ∀ c, l.head? = some c → c ≠ 0x2b ∧ c ≠ 0x21 ∧ ¬ Code c := by
          intro c hc
          match l, hc, hd with
          | b :: l, hc, hd =>
            simp at hc hd
            rw [← hc, ← hd.1]
            exact ⟨h1, h2, h3⟩
        rw [hd] at h ⊢
        rw [pci_line hl hh, C98_event_line] at h
        rcases h with ⟨rfl, rfl, rfl⟩ | ⟨r, hr, rfl, rfl⟩
        · exact .empty rest
        · exact .line l rest r hl hh hr
  · exact back _

theorem prefix_char {b : UInt8} {q l rest : Bytes} (hq : b ∉ q) (h : q <+: l ++ b :: rest) : q <+: l := by
  rcases Nat.lt_or_ge l.length q.length with hlt | hge
  · exfalso
    apply hq
    obtain ⟨t, ht⟩ := h
    have h1 : (q ++ t)[l.length]? = some b := by rw [ht]; simp
    rw [List.getElem?_append_left hlt] at h1
    exact List.mem_of_getElem? h1
  · exact List.prefix_of_prefix_length_le h (List.prefix_append _ _) hge

theorem split_first {b : UInt8} {d : Bytes} (h : b ∈ d) : ∃ l rest, d = l ++ b :: rest ∧ b ∉ l := by
  cases hf : find [b] d with
  | none => exact absurd h ((find_single_none b d).1 hf)
  | some n =>
    obtain ⟨h1, h2, -⟩ := find_single_split hf
    exact ⟨_, _, h1, h2⟩

theorem client_line {l : Bytes} (hl : ClientLine l) (rest : Bytes) (cs strict : Bool) :
    decodePacket (l ++ 0x0d :: rest) cs strict false = decodeLine l (l.length + 1) cs strict false := by
  unfold decodePacket
  rw [if_neg (by simp), frameClient_line_any hl]

/-- C98: everything received by the PCI. -/
theorem C98_sent (d : Bytes) (cs strict : Bool) (x : Option Packet) (n : Nat) :
    decodePacket d cs strict false = .ok (x, n) ↔ ToPci cs strict d (x, n) := by
  have back : ∀ r, ToPci cs strict d r → decodePacket d cs strict false = .ok r := by
    intro r h
    cases h with
    | reset => simp [decodePacket, frameClient]
    | null => simp [decodePacket, frameClient]
    | connect => simp [decodePacket, frameClient, endCommand, find, List.isPrefixOf]
    | connectTwice => simp [decodePacket, frameClient, endCommand, find, List.isPrefixOf]
    | waiting _ h1 h2 h =>
      refine (C34_client d cs strict).1 ?_
      rintro (h' | h' | h')
      · exact h1 h'
      · exact h2 h'
      · exact h h'
    | cancelled t u rest h1 h2 h3 h4 h5 =>
      have f1 : find [0x3f] (t ++ 0x3f :: (u ++ 0x0d :: rest)) = some t.length := find_single_append _ _ _ h3
      have f2 : find endCommand (t ++ 0x3f :: (u ++ 0x0d :: rest)) = some (t.length + 1 + u.length) := by
        have := find_single_append 0x0d (t ++ 0x3f :: u) rest (by simp [h4, h5])
        simpa [endCommand, Nat.add_assoc, Nat.add_comm, Nat.add_left_comm] using this
      have p1 : [0x7e].isPrefixOf (t ++ 0x3f :: (u ++ 0x0d :: rest)) = false := by
        cases t with
        | nil => rfl
        | cons a t =>
          simp only [List.cons_append, List.isPrefixOf, Bool.and_true, beq_eq_false_iff_ne]
          rintro rfl
          exact h1 rfl
      have pre : ∀ q : Bytes, (0x3f : UInt8) ∉ q → q <+: t ++ 0x3f :: (u ++ 0x0d :: rest) → q <+: t := by
        intro q hq h
        exact prefix_char hq h
      have p2 : [0x6e, 0x75, 0x6c, 0x6c].isPrefixOf (t ++ 0x3f :: (u ++ 0x0d :: rest)) = false := by
        cases h : [0x6e, 0x75, 0x6c, 0x6c].isPrefixOf (t ++ 0x3f :: (u ++ 0x0d :: rest)) with
        | false => rfl
        | true => exact absurd (pre _ (by decide) (List.isPrefixOf_iff_prefix.1 h)) h2
      have p3 : ¬ (([0x7c] ++ endCommand).isPrefixOf (t ++ 0x3f :: (u ++ 0x0d :: rest)) = true ∨
          ([0x7c, 0x7c] ++ endCommand).isPrefixOf (t ++ 0x3f :: (u ++ 0x0d :: rest)) = true) := by
        rintro (h | h)
        · exact h4 ((pre _ (by decide) (List.isPrefixOf_iff_prefix.1 h)).subset (by simp [endCommand]))
        · exact h4 ((pre _ (by decide) (List.isPrefixOf_iff_prefix.1 h)).subset (by simp [endCommand]))
      unfold decodePacket
      rw [if_neg (by simp), frameClient_eq (by simp), if_neg (by rw [p1]; simp), if_neg (by rw [p2]; simp), if_neg p3, f1, f2]
      simp only
      rw [if_pos (by omega)]
    | empty rest =>
      have := client_line (l := []) (by simp [ClientLine]) rest cs strict
      simpa [decodeLine] using this
    | line l rest r h1 h2 h3 h4 h5 h6 h =>
      rw [client_line ⟨h4, h3, h1, h2, h5, h6⟩, C98_command_line]
      exact .inr ⟨r, h, rfl, rfl⟩
  constructor
  · intro h
    have go : ∀ y, ToPci cs strict d y → ToPci cs strict d (x, n) := by
      intro y hy
      have := back y hy
      rw [h] at this
      cases this
      exact hy
    by_cases h1 : d.head? = some 0x7e
    · obtain ⟨rest, rfl⟩ : ∃ rest, d = 0x7e :: rest := by
        cases d with
        | nil => cases h1
        | cons a rest => simp at h1; exact ⟨rest, by rw [h1]⟩
      exact go _ (.reset rest)
    by_cases h2 : [0x6e, 0x75, 0x6c, 0x6c] <+: d
    · obtain ⟨rest, rfl⟩ := h2
      exact go _ (.null rest)
    by_cases h3 : (0x0d : UInt8) ∈ d
    · obtain ⟨l, rest, rfl, hl⟩ := split_first h3
      have k1 : l.head? ≠ some 0x7e := by
        intro hl'
        apply h1
        cases l with
        | nil => cases hl'
        | cons a l => exact hl'
      have k2 : ¬ [0x6e, 0x75, 0x6c, 0x6c] <+: l := fun hp => h2 (hp.trans (List.prefix_append _ _))
      by_cases hq : (0x3f : UInt8) ∈ l
      · obtain ⟨t, u, rfl, ht⟩ := split_first hq
        have ht' : t.head? ≠ some 0x7e := by
          intro ht'
          apply k1
          cases t with
          | nil => cases ht'
          | cons a t => exact ht'
        have := ToPci.cancelled (checksum := cs) (strict := strict) t u rest ht'
          (fun hp => k2 (hp.trans (List.prefix_append _ _))) ht (fun hm => hl (by simp [hm])) (fun hm => hl (by simp [hm]))
        rw [show t ++ 0x3f :: (u ++ 0x0d :: rest) = t ++ 0x3f :: u ++ 0x0d :: rest by simp] at this
        exact go _ this
      · by_cases e1 : l = [0x7c]
        · subst e1; exact go _ (.connect rest)
        by_cases e2 : l = [0x7c, 0x7c]
        · subst e2; exact go _ (.connectTwice rest)
        rw [client_line ⟨hl, hq, k1, k2, e1, e2⟩, C98_command_line] at h
        rcases h with ⟨rfl, rfl, rfl⟩ | ⟨r, hr, rfl, rfl⟩
        · exact .empty rest
        · exact .line l rest r k1 k2 hq hl e1 e2 hr
    · exact go _ (.waiting d h1 h2 h3)
  · exact back _

/-- A switched light, an unknown application, device management without a value, a
bare CAL with the bytes it takes too much, and a cancelled command. -/
example :
    FromPci true true (ascii "05FA380079014F\r\nz.")
      (some (.pm { app := some 0x38, sals := [.lightOn 1], src := some 0xfa }), 16) ∧
    FromPci false true (ascii "05FA990079\r\n") (some (.invalid [0x99, 0x00, 0x79] .valueError), 12) ∧
    FromPci false true (ascii "25FA2100\r\n") (some (.invalid [0x21, 0x00] .indexError), 10) ∧
    ToPci true true (ascii "@001A2001\r") (some (.cal (.recall 0x20 1)), 13) ∧
    ToPci true true (ascii "\\0538?\r") (none, 6) ∧
    ¬ ToPci true true (ascii "\\0538?\r") (none, 7) := by
  refine ⟨(C98_received _ _ _ _ _).1 ?_, (C98_received _ _ _ _ _).1 ?_, (C98_received _ _ _ _ _).1 ?_,
    (C98_sent _ _ _ _ _).1 ?_, (C98_sent _ _ _ _ _).1 ?_, fun h => ?_⟩
  · decide +kernel
  · decide +kernel
  · decide +kernel
  · decide +kernel
  · decide +kernel
  · rw [← C98_sent] at h
    revert h
    decide +kernel

/-- C98: without further arguments `decode_packet` expects checksums, is strict and takes
what it is given for received from the PCI. -/
theorem C98_defaults (d : Bytes) (x : Option Packet) (n : Nat) :
    decodePacket d = .ok (x, n) ↔ FromPci true true d (x, n) :=
  C98_received d true true x n

end CBus.Props
