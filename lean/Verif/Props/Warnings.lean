import Verif.Spec.Warnings
import Verif.Props.Grammar

/-! # C154: what is dropped from a message is warned of -/

namespace CBus.Props
open CBus Spec

/-! ## The applications -/

theorem six_iff : ∀ c : UInt8, c.toNat / 8 = 1 → (c ≠ 0x0e ↔ (c &&& 7).toNat ≠ 6) := by apply forall_byte; decide +kernel
theorem five_iff : ∀ c : UInt8, c.toNat / 8 = 1 → (c ≠ 0x0d ↔ (c &&& 7).toNat ≠ 5) := by apply forall_byte; decide +kernel
theorem high3_iff : ∀ b : UInt8, b &&& 0xe0 ≠ 0 ↔ ¬ b.toNat < 32 := by apply forall_byte; decide +kernel

theorem clockUpdate_w (cmd : UInt8) (data : Bytes) (hc : cmd.toNat / 8 = 1) :
    clockDecodeW (cmd :: data) = match clockUpdateDecode data cmd with
      | .error e => (clockUpdateWarnings data cmd, .error e)
      | .ok r => turn (clockUpdateWarnings data cmd) (.ok r.1) (clockDecodeW r.2) := by
  rw [clockDecodeW]
  rw [if_neg (by rw [bit7_iff]; omega), if_neg (by rw [high3_iff]; omega), if_pos ((update_iff cmd).2 hc)]
  split
  · rename_i e he; rw [he]
  · rename_i r hr; rw [hr]

theorem clockRequest_w (data : Bytes) :
    clockDecodeW (0x11 :: data) = match clockRequestDecode data with
      | .error e => (clockRequestWarnings data, .error e)
      | .ok r => turn (clockRequestWarnings data) (.ok r.1) (clockDecodeW r.2) := by
  rw [clockDecodeW]
  rw [if_neg (by decide), if_neg (by decide), if_neg (by decide), if_pos rfl]
  split
  · rename_i e he; rw [he]
  · rename_i r hr; rw [hr]

theorem command_w {a : AppHandler} {d : Bytes} {s : SAL} {rest : Bytes} (h : Command a d (some s) rest) :
    a.decodeSalsW d = turn [] (.ok (some s)) (a.decodeSalsW rest) := by
  cases h with
  | lightOn ga =>
    simp only [AppHandler.decodeSalsW]
    rw [lightingDecodeW]
    simp only [show lightHandler 0x79 = some .on by decide, mkLightOn, checkGa_uint8, bind, Except.bind, pure, Except.pure,
      Except.map]
  | lightOff ga =>
    simp only [AppHandler.decodeSalsW]
    rw [lightingDecodeW]
    simp only [show lightHandler 0x01 = some .off by decide, mkLightOff, checkGa_uint8, bind, Except.bind, pure, Except.pure,
      Except.map]
  | lightTerminate ga =>
    simp only [AppHandler.decodeSalsW]
    rw [lightingDecodeW]
    simp only [show lightHandler 0x09 = some .terminate by decide, mkLightTerminate, checkGa_uint8, bind, Except.bind, pure,
      Except.pure, Except.map]
  | lightRamp k d cmd ga level _ hd hc =>
    have hq := ramp_duration hd hc
    simp only [AppHandler.decodeSalsW]
    rw [lightingDecodeW]
    simp only [lightHandler_ramp cmd d hq, hq, mkLightRamp, checkGa_uint8, bind, Except.bind, pure, Except.pure, Except.map]
  | temperature cmd ga t _ h1 h2 =>
    simp only [AppHandler.decodeSalsW]
    rw [temperatureDecodeW, if_neg (by rw [bit7_iff]; omega), if_neg (by rw [low3_iff]; omega)]
  | enable cmd var val _ h1 h2 =>
    simp only [AppHandler.decodeSalsW]
    rw [enableDecodeW, if_neg (by rw [bit7_iff]; omega), if_neg (by rw [low3_iff]; omega)]
  | binaryRequest c app ga _ hc hg =>
    simp only [AppHandler.decodeSalsW]
    rw [statusDecodeW, if_pos hc]
    simp only [statusBody, if_neg ((not_congr (low5_iff ga)).2 (by omega)), Except.map]
  | levelRequest app ga _ hg =>
    simp only [AppHandler.decodeSalsW]
    rw [statusDecodeW, if_neg (by decide), if_pos rfl]
    simp only [statusBody, if_neg ((not_congr (low5_iff ga)).2 (by omega)), Except.map]
  | date yh yl m d w _ h =>
    simp only [AppHandler.decodeSalsW]
    rw [clockUpdate_w _ _ (by decide), clockUpdateDecode_date yh yl m d w rest _ (by rw [mkDate, if_pos h])]
    rfl
  | time h m s dst _ hv =>
    simp only [AppHandler.decodeSalsW]
    rw [clockUpdate_w _ _ (by decide), clockUpdateDecode_time h m s dst rest _
      (by rw [mkTime, if_pos ⟨hv.1, hv.2.1, hv.2.2, Nat.zero_lt_succ _⟩])]
    rfl
  | request =>
    simp only [AppHandler.decodeSalsW]
    rw [clockRequest_w]
    rfl

theorem skipped_w {a : AppHandler} {d rest : Bytes} {w : Warning} (h : Command a d none rest) (hw : Skipped d w) :
    a.decodeSalsW d = turn [w] (.ok none) (a.decodeSalsW rest) := by
  cases h with
  | otherRequest x _ h =>
    simp only [AppHandler.decodeSalsW]
    rw [clockRequest_w]
    have : w = .refreshArgument x := by
      cases hw with
      | request => rfl
      | date => rename_i h8 _; exact absurd h8 (by decide)
      | time => rename_i h8 _; exact absurd h8 (by decide)
      | other => rename_i h8 _ _; exact absurd h8 (by decide)
    simp [clockRequestDecode, clockRequestWarnings, byteAt, bind, Except.bind, pure, Except.pure, h, this]
  | otherLength cmd var rest h hv =>
    simp only [AppHandler.decodeSalsW]
    rw [clockUpdate_w _ _ h]
    have hl := low3_toNat cmd
    have h11 : cmd ≠ 0x11 := by rintro rfl; exact absurd h (by decide)
    rcases hv with ⟨rfl, hc⟩ | ⟨rfl, hc⟩
    · have h6 := (six_iff cmd h).1 hc
      have hw : w = .dateLength (cmd.toNat % 8) := by
        cases hw with
        | request => exact absurd rfl h11
        | date => rfl
        | other _ _ _ _ _ h2 => exact absurd rfl h2
      subst hw
      simp [clockUpdateDecode, clockUpdateWarnings, byteAt, bind, Except.bind, pure, Except.pure, hl, hl ▸ h6]
    · have h5 := (five_iff cmd h).1 hc
      have hw : w = .timeLength (cmd.toNat % 8) := by
        cases hw with
        | request => exact absurd rfl h11
        | time => rfl
        | other _ _ _ _ h1 _ => exact absurd rfl h1
      subst hw
      simp [clockUpdateDecode, clockUpdateWarnings, byteAt, bind, Except.bind, pure, Except.pure, hl, hl ▸ h5]
  | otherVariable cmd var rest h h1 h2 =>
    simp only [AppHandler.decodeSalsW]
    rw [clockUpdate_w _ _ h]
    have hl := low3_toNat cmd
    have h11 : cmd ≠ 0x11 := by rintro rfl; exact absurd h (by decide)
    have hw : w = .clockVariable var := by
      cases hw with
      | request => exact absurd rfl h11
      | date => exact absurd rfl h2
      | time => exact absurd rfl h1
      | other => rfl
    subst hw
    simp only [clockUpdateDecode, clockUpdateWarnings, byteAt, bind, Except.bind, pure, Except.pure, hl,
      List.getElem?_cons_zero, if_neg h1, if_neg h2, List.drop_drop]
    rw [Nat.two_mul]

/-- A command that is skipped has a warning. -/
theorem skipped_exists {a : AppHandler} {d rest : Bytes} (h : Command a d none rest) : ∃ w, Skipped d w := by
  cases h with
  | otherRequest x _ h => exact ⟨_, .request x rest h⟩
  | otherLength cmd var rest h hv =>
    rcases hv with ⟨rfl, hc⟩ | ⟨rfl, hc⟩
    · exact ⟨_, .date cmd rest h hc⟩
    · exact ⟨_, .time cmd rest h hc⟩
  | otherVariable cmd var rest h h1 h2 => exact ⟨_, .other cmd var rest h h1 h2⟩

theorem handler_none : ∀ c : UInt8, c ∉ [0x79, 0x01, 0x09] → (∀ k < 16, c.toNat ≠ rampCode k) → lightHandler c = none := by
  apply forall_byte; decide +kernel

theorem handler_some : ∀ c : UInt8, lightHandler c = none → c ∉ [0x79, 0x01, 0x09] ∧ ∀ k < 16, c.toNat ≠ rampCode k := by
  apply forall_byte; decide +kernel

theorem givenUp_w {a : AppHandler} {d : Bytes} {w : Warning} (h : GivenUp a d w) :
    a.decodeSalsW d = ([w], .ok []) ∧ a.decodeSals d = .ok [] := by
  cases h with
  | lightingStray b => constructor <;> simp only [AppHandler.decodeSalsW, AppHandler.decodeSals, lightingDecodeW, lightingDecode]
  | lightingUnknown cmd ga rest h hr =>
    have := handler_none cmd h hr
    constructor
    · simp only [AppHandler.decodeSalsW]; rw [lightingDecodeW, this]
    · simp only [AppHandler.decodeSals]; rw [lightingDecode, this]
  | rampWithoutLevel k cmd ga hk hc =>
    have hd : ∃ q, rampDurations[k]? = some q := by
      have : ∀ k : Fin 16, (rampDurations[k.val]?).isSome := by decide
      exact Option.isSome_iff_exists.1 (this ⟨k, hk⟩)
    obtain ⟨q, hd⟩ := hd
    have hq := ramp_duration hd hc
    constructor
    · simp only [AppHandler.decodeSalsW]; rw [lightingDecodeW, lightHandler_ramp cmd q hq]; simp only [hq]
    · simp only [AppHandler.decodeSals]; rw [lightingDecode, lightHandler_ramp cmd q hq]; simp only [hq]
  | clockLongForm cmd rest h =>
    have := (bit7_iff cmd).2 (by omega)
    constructor
    · simp only [AppHandler.decodeSalsW]; rw [clockDecodeW, if_pos this]
    · simp only [AppHandler.decodeSals]; rw [clockDecode, if_pos this]
  | clockOtherBits cmd rest h1 h2 =>
    have n1 : ¬ (cmd &&& 0x80 = 0x80) := by rw [bit7_iff]; omega
    have n2 := (high3_iff cmd).2 (by omega)
    constructor
    · simp only [AppHandler.decodeSalsW]; rw [clockDecodeW, if_neg n1, if_pos n2]
    · simp only [AppHandler.decodeSals]; rw [clockDecode, if_neg n1, if_pos n2]
  | clockUnknown cmd rest h1 h2 h3 =>
    have n1 : ¬ (cmd &&& 0x80 = 0x80) := by rw [bit7_iff]; omega
    have n2 : ¬ (cmd &&& 0xe0 ≠ 0) := by rw [high3_iff]; omega
    have n3 : ¬ (cmd &&& 0xf8 = 0x08) := by rw [update_iff]; omega
    constructor
    · simp only [AppHandler.decodeSalsW]; rw [clockDecodeW, if_neg n1, if_neg n2, if_neg n3, if_neg h3]
    · simp only [AppHandler.decodeSals]; rw [clockDecode, if_neg n1, if_neg n2, if_neg n3, if_neg h3]
  | temperatureStray _ h1 h2 =>
    match d, h1, h2 with
    | [x], _, _ => exact ⟨rfl, rfl⟩
    | [x, y], _, _ => exact ⟨rfl, rfl⟩
  | temperatureUnknown cmd ga t rest h =>
    have := (bit7_iff cmd).2 (by omega)
    constructor
    · simp only [AppHandler.decodeSalsW]; rw [temperatureDecodeW, if_pos this]
    · simp only [AppHandler.decodeSals]; rw [temperatureDecode, if_pos this]
  | temperatureLength cmd ga t rest h1 h2 =>
    have n1 : ¬ (cmd &&& 0x80 = 0x80) := by rw [bit7_iff]; omega
    have n2 := (low3_iff cmd).2 h2
    constructor
    · simp only [AppHandler.decodeSalsW]; rw [temperatureDecodeW, if_neg n1, if_pos n2]
    · simp only [AppHandler.decodeSals]; rw [temperatureDecode, if_neg n1, if_pos n2]
  | enableStray _ h1 h2 =>
    match d, h1, h2 with
    | [x], _, _ => exact ⟨rfl, rfl⟩
    | [x, y], _, _ => exact ⟨rfl, rfl⟩
  | enableUnknown cmd ga t rest h =>
    have := (bit7_iff cmd).2 (by omega)
    constructor
    · simp only [AppHandler.decodeSalsW]; rw [enableDecodeW, if_pos this]
    · simp only [AppHandler.decodeSals]; rw [enableDecode, if_pos this]
  | enableLength cmd ga t rest h1 h2 =>
    have n1 : ¬ (cmd &&& 0x80 = 0x80) := by rw [bit7_iff]; omega
    have n2 := (low3_iff cmd).2 h2
    constructor
    · simp only [AppHandler.decodeSalsW]; rw [enableDecodeW, if_neg n1, if_pos n2]
    · simp only [AppHandler.decodeSals]; rw [enableDecode, if_neg n1, if_pos n2]

theorem cutOff_w {d : Bytes} (h : CutOff d) : statusDecodeW d = ([.statusIncomplete], .error .indexError) := by
  cases h with
  | binary c rest hc h =>
    match rest, h with
    | [], _ => unfold statusDecodeW; simp [hc]
    | [x], _ => unfold statusDecodeW; simp [hc]
  | level rest h =>
    match rest, h with
    | [], _ => unfold statusDecodeW; simp
    | [x], _ => unfold statusDecodeW; simp

theorem refused_w {a : AppHandler} {d : Bytes} {e : PyErr} (h : Refused a d e) (hc : ¬ (a = .statusRequest ∧ CutOff d)) :
    a.decodeSalsW d = ([], .error e) := by
  cases h with
  | shortBinaryRequest c rest hc' h => exact absurd ⟨rfl, .binary c rest hc' h⟩ hc
  | shortLevelRequest rest h => exact absurd ⟨rfl, .level rest h⟩ hc
  | binaryGroup c app ga rest hc' hg =>
    simp only [AppHandler.decodeSalsW]
    rw [statusDecodeW, if_pos hc']
    simp only [statusBody, if_pos ((low5_iff ga).2 hg), Except.map, turn]
  | levelGroup app ga rest hg =>
    simp only [AppHandler.decodeSalsW]
    rw [statusDecodeW, if_neg (by decide), if_pos rfl]
    simp only [statusBody, if_pos ((low5_iff ga).2 hg), Except.map, turn]
  | otherRequest c rest h =>
    simp only [AppHandler.decodeSalsW]
    simp only [List.mem_cons, List.not_mem_nil, or_false, not_or] at h
    unfold statusDecodeW
    simp [h]
  | otherLevelRequest rest h =>
    simp only [AppHandler.decodeSalsW]
    unfold statusDecodeW
    simp only [if_neg (show ¬ ((0x73 : UInt8) = 0x7a ∨ (0x73 : UInt8) = 0xfa) by decide), if_true]
    split
    · simp at h
    · simp at h
    · rfl
  | noVariable cmd h =>
    simp only [AppHandler.decodeSalsW]
    rcases h with h | rfl
    · rw [clockUpdate_w _ _ h]; rfl
    · rw [clockRequest_w]; rfl
  | shortDate rest h =>
    simp only [AppHandler.decodeSalsW]
    rw [clockUpdate_w _ _ (by decide)]
    match rest, h with
    | [], _ => rfl
    | [_], _ => rfl
    | [_, _], _ => rfl
    | [_, _, _], _ => rfl
    | [_, _, _, _], _ => rfl
  | shortTime rest h =>
    simp only [AppHandler.decodeSalsW]
    rw [clockUpdate_w _ _ (by decide)]
    match rest, h with
    | [], _ => rfl
    | [_], _ => rfl
    | [_, _], _ => rfl
    | [_, _, _], _ => rfl
  | date yh yl m d w rest h =>
    simp only [AppHandler.decodeSalsW]
    rw [clockUpdate_w _ _ (by decide)]
    have key : clockUpdateDecode (0x02 :: yh :: yl :: m :: d :: w :: rest) 0x0e = .error .valueError := by
      have hl : ((0x0e : UInt8) &&& 7).toNat = 6 := by decide
      unfold clockUpdateDecode
      simp only [byteAt, List.getElem?_cons_zero, bind, Except.bind, pure, Except.pure, hl]
      simp [mkDate, h]
    rw [key]
    rfl
  | time hh m s dst rest hv =>
    simp only [AppHandler.decodeSalsW]
    rw [clockUpdate_w _ _ (by decide)]
    have key : clockUpdateDecode (0x01 :: hh :: m :: s :: dst :: rest) 0x0d = .error .valueError := by
      have hl : ((0x0d : UInt8) &&& 7).toNat = 5 := by decide
      unfold clockUpdateDecode
      simp only [byteAt, List.getElem?_cons_zero, bind, Except.bind, pure, Except.pure, hl]
      have : ¬ PyTime.Valid ⟨hh.toNat, m.toNat, s.toNat, 0⟩ := fun h => hv ⟨h.1, h.2.1, h.2.2.1⟩
      simp [mkTime, this]
    rw [key]
    rfl

theorem nil_w (a : AppHandler) : a.decodeSalsW [] = ([], .ok []) ∧ a.decodeSals [] = .ok [] := by
  cases a <;> simp [AppHandler.decodeSalsW, AppHandler.decodeSals, statusDecodeW, statusDecode, clockDecodeW, clockDecode,
    enableDecodeW, enableDecode, lightingDecodeW, lightingDecode, temperatureDecodeW, temperatureDecode]

/-- At the front of data there is a command, or they are refused, or given up. -/
theorem piece_or (a : AppHandler) (d : Bytes) (hd : d ≠ []) :
    (∃ s rest, Command a d s rest) ∨ (∃ e, Refused a d e) ∨ ∃ w, GivenUp a d w := by
  rcases command_or a d with h | h | h
  · exact .inl h
  · exact .inr (.inl h)
  · by_cases hc : ∃ s rest, Command a d s rest
    · exact .inl hc
    · by_cases hr : ∃ e, Refused a d e
      · exact .inr (.inl hr)
      · refine .inr (.inr ?_)
        cases a with
        | lighting =>
          match d, hd with
          | [b], _ => exact ⟨_, .lightingStray b⟩
          | cmd :: ga :: rest, _ =>
            cases hk : lightHandler cmd with
            | none => exact ⟨_, .lightingUnknown cmd ga rest (handler_some cmd hk).1 (handler_some cmd hk).2⟩
            | some k =>
              have inv : ∀ c : UInt8, ∀ k ∈ lightHandler c, k = .on ∧ c = 0x79 ∨ k = .off ∧ c = 0x01 ∨
                  k = .terminate ∧ c = 0x09 ∨ k = .ramp := by
                apply forall_byte; decide +kernel
              rcases inv cmd k hk with ⟨rfl, rfl⟩ | ⟨rfl, rfl⟩ | ⟨rfl, rfl⟩ | rfl
              · exact absurd ⟨_, _, .lightOn ga rest⟩ hc
              · exact absurd ⟨_, _, .lightOff ga rest⟩ hc
              · exact absurd ⟨_, _, .lightTerminate ga rest⟩ hc
              · obtain ⟨k, hk16, q, h1, h2, h3⟩ := ramp_code cmd hk
                match rest with
                | [] => exact ⟨_, .rampWithoutLevel k cmd ga hk16 h2⟩
                | level :: rest => exact absurd ⟨_, _, .lightRamp k q cmd ga level rest h1 h2⟩ hc
        | temperature =>
          match d, hd with
          | [x], _ => exact ⟨_, .temperatureStray [x] (by simp) (by simp)⟩
          | [x, y], _ => exact ⟨_, .temperatureStray [x, y] (by simp) (by simp)⟩
          | cmd :: ga :: t :: rest, _ =>
            by_cases h1 : cmd.toNat < 128
            · by_cases h2 : cmd.toNat % 8 = 2
              · exact absurd ⟨_, _, .temperature cmd ga t rest h1 h2⟩ hc
              · exact ⟨_, .temperatureLength cmd ga t rest h1 h2⟩
            · exact ⟨_, .temperatureUnknown cmd ga t rest (by omega)⟩
        | enable =>
          match d, hd with
          | [x], _ => exact ⟨_, .enableStray [x] (by simp) (by simp)⟩
          | [x, y], _ => exact ⟨_, .enableStray [x, y] (by simp) (by simp)⟩
          | cmd :: ga :: t :: rest, _ =>
            by_cases h1 : cmd.toNat < 128
            · by_cases h2 : cmd.toNat % 8 = 2
              · exact absurd ⟨_, _, .enable cmd ga t rest h1 h2⟩ hc
              · exact ⟨_, .enableLength cmd ga t rest h1 h2⟩
            · exact ⟨_, .enableUnknown cmd ga t rest (by omega)⟩
        | statusRequest =>
          exfalso
          match d, hd with
          | c :: rest, _ =>
            by_cases h7 : c = 0x7a ∨ c = 0xfa
            · match rest with
              | [] => exact hr ⟨_, .shortBinaryRequest c [] h7 (by decide)⟩
              | [x] => exact hr ⟨_, .shortBinaryRequest c [x] h7 (by simp)⟩
              | app :: ga :: rest =>
                by_cases hg : ga.toNat % 32 = 0
                · exact hc ⟨_, _, .binaryRequest c app ga rest h7 hg⟩
                · exact hr ⟨_, .binaryGroup c app ga rest h7 hg⟩
            · by_cases h3 : c = 0x73
              · subst h3
                by_cases hh : rest.head? = some 0x07
                · match rest, hh with
                  | x :: rest, hh =>
                    have : x = 0x07 := by simpa using hh
                    subst this
                    match rest with
                    | [] => exact hr ⟨_, .shortLevelRequest [] (by decide)⟩
                    | [x] => exact hr ⟨_, .shortLevelRequest [x] (by simp)⟩
                    | app :: ga :: rest =>
                      by_cases hg : ga.toNat % 32 = 0
                      · exact hc ⟨_, _, .levelRequest app ga rest hg⟩
                      · exact hr ⟨_, .levelGroup app ga rest hg⟩
                · exact hr ⟨_, .otherLevelRequest rest hh⟩
              · exact hr ⟨_, .otherRequest c rest (by simp_all)⟩
        | clock =>
          match d, hd with
          | cmd :: rest, _ =>
            by_cases hl : 128 ≤ cmd.toNat
            · exact ⟨_, .clockLongForm cmd rest hl⟩
            · by_cases hb : 32 ≤ cmd.toNat
              · exact ⟨_, .clockOtherBits cmd rest hb (by omega)⟩
              · refine ⟨_, .clockUnknown cmd rest (by omega) (fun hu => ?_) (fun hu => ?_)⟩
                · match rest with
                  | [] => exact hr ⟨_, .noVariable cmd (.inl hu)⟩
                  | var :: rest =>
                    by_cases h2 : var = 0x02
                    · subst h2
                      by_cases hce : cmd = 0x0e
                      · subst hce
                        match rest with
                        | [] => exact hr ⟨_, .shortDate _ (by simp)⟩
                        | [_] => exact hr ⟨_, .shortDate _ (by simp)⟩
                        | [_, _] => exact hr ⟨_, .shortDate _ (by simp)⟩
                        | [_, _, _] => exact hr ⟨_, .shortDate _ (by simp)⟩
                        | [_, _, _, _] => exact hr ⟨_, .shortDate _ (by simp)⟩
                        | yh :: yl :: m :: d :: w :: rest =>
                          by_cases hv : PyDate.Valid ⟨yh.toNat * 256 + yl.toNat, m.toNat, d.toNat⟩
                          · exact hc ⟨_, _, .date yh yl m d w rest hv⟩
                          · exact hr ⟨_, .date yh yl m d w rest hv⟩
                      · exact hc ⟨_, _, .otherLength cmd _ rest hu (.inl ⟨rfl, hce⟩)⟩
                    · by_cases h1 : var = 0x01
                      · subst h1
                        by_cases hcd : cmd = 0x0d
                        · subst hcd
                          match rest with
                          | [] => exact hr ⟨_, .shortTime _ (by simp)⟩
                          | [_] => exact hr ⟨_, .shortTime _ (by simp)⟩
                          | [_, _] => exact hr ⟨_, .shortTime _ (by simp)⟩
                          | [_, _, _] => exact hr ⟨_, .shortTime _ (by simp)⟩
                          | h :: m :: s :: x :: rest =>
                            by_cases hv : h.toNat < 24 ∧ m.toNat < 60 ∧ s.toNat < 60
                            · exact hc ⟨_, _, .time h m s x rest hv⟩
                            · exact hr ⟨_, .time h m s x rest hv⟩
                        · exact hc ⟨_, _, .otherLength cmd _ rest hu (.inr ⟨rfl, hcd⟩)⟩
                      · exact hc ⟨_, _, .otherVariable cmd var rest hu h1 h2⟩
                · subst hu
                  match rest with
                  | [] => exact hr ⟨_, .noVariable _ (.inr rfl)⟩
                  | x :: rest =>
                    by_cases h3 : x = 0x03
                    · subst h3
                      exact hc ⟨_, _, .request rest⟩
                    · exact hc ⟨_, _, .otherRequest x rest h3⟩

theorem turn_fst (ws : List Warning) (o : Option SAL) (r : Warned (List SAL)) : (turn ws (.ok o) r).1 = ws ++ r.1 := rfl

theorem turn_snd (ws : List Warning) (o : Option SAL) (r : Warned (List SAL)) :
    (turn ws (.ok o) r).2 = r.2.map (o.toList ++ ·) := consOpt_map o r.2

theorem warns_eq {a : AppHandler} {d : Bytes} {ws : List Warning} (h : Warns a d ws) : (a.decodeSalsW d).1 = ws := by
  induction h with
  | nil => rw [(nil_w a).1]
  | command d s rest ws h _ ih => rw [command_w h, turn_fst, ih]; rfl
  | skipped d rest w ws h hw _ ih => rw [skipped_w h hw, turn_fst, ih]; rfl
  | givenUp d w h => rw [(givenUp_w h).1]
  | cutOff d ha h => subst ha; simp only [AppHandler.decodeSalsW]; rw [cutOff_w h]
  | refused d e h hc => rw [refused_w h hc]

theorem warns_exists (a : AppHandler) : ∀ (n : Nat) (d : Bytes), d.length ≤ n → ∃ ws, Warns a d ws := by
  intro n
  induction n with
  | zero =>
    intro d hd
    have hd : d = [] := by simpa using hd
    subst hd
    exact ⟨_, .nil⟩
  | succ n ih =>
    intro d hd
    by_cases h0 : d = []
    · subst h0; exact ⟨_, .nil⟩
    · rcases piece_or a d h0 with ⟨s, rest, h⟩ | ⟨e, h⟩ | ⟨w, h⟩
      · obtain ⟨ws, hws⟩ := ih rest (by have := command_shorter h; omega)
        cases s with
        | some s => exact ⟨_, .command d s rest ws h hws⟩
        | none =>
          obtain ⟨w, hw⟩ := skipped_exists h
          exact ⟨_, .skipped d rest w ws h hw hws⟩
      · by_cases hc : a = .statusRequest ∧ CutOff d
        · exact ⟨_, .cutOff d hc.1 hc.2⟩
        · exact ⟨_, .refused d e h hc⟩
      · exact ⟨_, .givenUp d w h⟩

/-- C154: the warnings for the data of an application are the ones they are to have. -/
theorem C154_warnings (a : AppHandler) (d : Bytes) (ws : List Warning) : (a.decodeSalsW d).1 = ws ↔ Warns a d ws := by
  refine ⟨fun h => ?_, warns_eq⟩
  obtain ⟨ws', h'⟩ := warns_exists a d.length d (Nat.le_refl _)
  rw [← h, warns_eq h']
  exact h'

/-- C154: the decoders with warnings have the results of the decoders without. -/
theorem C154_results (a : AppHandler) (d : Bytes) : (a.decodeSalsW d).2 = a.decodeSals d := by
  obtain ⟨ws, h⟩ := warns_exists a d.length d (Nat.le_refl _)
  induction h with
  | nil => rw [(nil_w a).1, (nil_w a).2]
  | command d s rest ws h _ ih => rw [command_w h, turn_snd, ih, command_eq h]
  | skipped d rest w ws h hw _ ih => rw [skipped_w h hw, turn_snd, ih, command_eq h]
  | givenUp d w h => rw [(givenUp_w h).1, (givenUp_w h).2]
  | cutOff d ha h =>
    subst ha
    have hr : Refused .statusRequest d .indexError := by
      cases h with
      | binary c rest hc h => exact .shortBinaryRequest c rest hc h
      | level rest h => exact .shortLevelRequest rest h
    rw [refused_eq hr]
    simp only [AppHandler.decodeSalsW]
    rw [cutOff_w h]
  | refused d e h hc => rw [refused_w h hc, refused_eq h]

theorem allReported_w {a : AppHandler} {d : Bytes} {l : List SAL} (h : AllReported a d l) :
    a.decodeSalsW d = ([], .ok l) := by
  induction h with
  | nil => exact (nil_w a).1
  | cons d s rest l h _ ih => rw [command_w h, ih]; rfl

/-- C154: there is no warning and no exception exactly if the data are commands from the
first byte to the last and each of them is reported. Whatever is not reported is warned
of, or makes the packet invalid. -/
theorem C154_silent (a : AppHandler) (d : Bytes) (l : List SAL) :
    a.decodeSalsW d = ([], .ok l) ↔ AllReported a d l := by
  refine ⟨fun h => ?_, allReported_w⟩
  have hw : Warns a d [] := (C154_warnings a d []).1 (by rw [h])
  have hr : a.decodeSals d = .ok l := by rw [← C154_results, h]
  clear h
  generalize hws : ([] : List Warning) = ws at hw
  induction hw generalizing l with
  | nil =>
    rw [(nil_w a).2] at hr
    injection hr with hr
    subst hr
    exact .nil
  | command d s rest ws h _ ih =>
    rw [command_eq h] at hr
    cases hl : a.decodeSals rest with
    | error e => rw [hl] at hr; cases hr
    | ok l' =>
      rw [hl] at hr
      injection hr with hr
      subst hr
      exact .cons d s rest l' h (ih l' hl hws)
  | skipped => cases hws
  | givenUp => cases hws
  | cutOff => cases hws
  | refused d e h => rw [refused_eq h] at hr; cases hr

/-! ## Packets -/

theorem datOf_pm : ∀ f : UInt8, f.toNat % 8 = 5 ↔ DAT.ofCode (f &&& 0x07) = .ok .pm := by
  apply forall_byte; decide +kernel

theorem dpOf : ∀ f : UInt8, (f &&& 0x20 == 0x20) = decide (f.toNat / 32 % 2 = 1) := by
  apply forall_byte; decide +kernel

theorem pmWarnings_two (a r : UInt8) (rest : Bytes) : pmWarnings (a :: r :: rest) =
    match expectedHandler a.toNat with
    | none => []
    | some h => if r = 0 then (h.decodeSalsW rest).1 else [] := by
  simp only [pmWarnings, mkApplication_eq]
  cases hh : expectedHandler a.toNat with
  | none => rfl
  | some h =>
    simp only [Option.isSome_some, if_true, C68_get_application, hh]
    by_cases hr : r = 0
    · rw [if_pos hr, if_neg (by simp [hr])]
    · rw [if_neg hr, if_pos hr]

/-- The warnings of a point to multipoint message are the ones for its data. -/
theorem body_multipoint {a : AppHandler} {data m : Bytes} {fp : Bool} (h : Multipoint a data fp m) :
    bodyWarnings m fp false = (a.decodeSalsW data).1 := by
  have key : ∀ flags app : UInt8, flags.toNat % 8 = 5 → flags.toNat / 32 % 2 = 0 → expectedHandler app.toNat = some a →
      DAT.ofCode (flags &&& 0x07) = .ok .pm ∧
        dispatchWarnings .pm (flags &&& 0x20 == 0x20) false (app :: 0 :: data) = (a.decodeSalsW data).1 := by
    intro flags app ht hd ha
    refine ⟨(datOf_pm flags).1 ht, ?_⟩
    rw [dpOf, hd]
    simp only [dispatchWarnings, show decide (0 = 1) = false by decide, Bool.false_eq_true, if_false]
    rw [pmWarnings_two, ha]
    rfl
  cases h with
  | received flags src app ht hd ha =>
    obtain ⟨h1, h2⟩ := key flags app ht hd ha
    simp only [bodyWarnings, h1, if_true]
    exact h2
  | sent flags app ht hd ha =>
    obtain ⟨h1, h2⟩ := key flags app ht hd ha
    simp only [bodyWarnings, h1, Bool.false_eq_true, if_false]
    exact h2

theorem dispatch_warns {dat : DAT} {f : UInt8} {dm : Bool} {d : Bytes}
    (hw : dispatchWarnings dat (f &&& 0x20 == 0x20) dm d ≠ []) :
    dm = false ∧ dat = .pm ∧ f.toNat / 32 % 2 = 0 ∧
      ∃ app a data, d = app :: 0x00 :: data ∧ expectedHandler app.toNat = some a := by
  rw [dpOf] at hw
  unfold dispatchWarnings at hw
  by_cases hf : f.toNat / 32 % 2 = 1
  · rw [if_pos (by simpa using hf)] at hw; exact absurd rfl hw
  · rw [if_neg (by simpa using hf)] at hw
    cases dm with
    | true => exact absurd rfl hw
    | false =>
      rw [if_neg (by simp)] at hw
      cases dat with
      | pm =>
        refine ⟨rfl, rfl, by omega, ?_⟩
        simp only at hw
        match d with
        | [] => exact absurd rfl hw
        | [_] => exact absurd rfl hw
        | app :: r :: data =>
          rw [pmWarnings_two] at hw
          cases hh : expectedHandler app.toNat with
          | none => rw [hh] at hw; exact absurd rfl hw
          | some h =>
            rw [hh] at hw
            simp only at hw
            by_cases hr : r = 0
            · subst hr; exact ⟨app, h, data, rfl, hh⟩
            · rw [if_neg hr] at hw; exact absurd rfl hw
      | pp => exact absurd rfl hw
      | ppm => exact absurd rfl hw
      | unset => exact absurd rfl hw

/-- Only point to multipoint messages have warnings. -/
theorem body_only {m : Bytes} {fp dm : Bool} (hw : bodyWarnings m fp dm ≠ []) :
    dm = false ∧ ∃ a data, Multipoint a data fp m := by
  match m with
  | [] => exact absurd rfl hw
  | f :: m =>
    simp only [bodyWarnings] at hw
    cases hd : DAT.ofCode (f &&& 0x07) with
    | error e => rw [hd] at hw; exact absurd rfl hw
    | ok dat =>
      rw [hd] at hw
      simp only at hw
      cases fp with
      | true =>
        simp only [if_true] at hw
        match m with
        | [] => exact absurd rfl hw
        | src :: m =>
          obtain ⟨h1, rfl, h2, app, a, data, rfl, ha⟩ := dispatch_warns hw
          exact ⟨h1, a, data, .received f src app ((datOf_pm f).2 hd) h2 ha⟩
      | false =>
        simp only [Bool.false_eq_true, if_false] at hw
        obtain ⟨h1, rfl, h2, app, a, data, rfl, ha⟩ := dispatch_warns hw
        exact ⟨h1, a, data, .sent f app ((datOf_pm f).2 hd) h2 ha⟩

theorem payload_pm {cs dm : Bool} {f : UInt8} {d : Bytes} {p : PM} {n : Nat}
    (h : PayloadAt cs dm f d (.ok (.pm p, n))) : dm = false ∧ f.toNat % 8 = 5 ∧ f.toNat / 32 % 2 = 0 ∧
      ∃ app a data, d = app :: 0x00 :: data ∧ expectedHandler app.toNat = some a ∧ a.decodeSals data = .ok p.sals := by
  generalize hr : (Except.ok (Packet.pm p, n) : Py (Packet × Nat)) = r at h
  cases h with
  | dm r _ h => cases r <;> simp [Except.map] at hr
  | cal c n => simp at hr
  | calRefused => simp at hr
  | pp r _ _ _ h => cases r <;> simp [Except.map] at hr
  | pm r hf hd ht h =>
    cases h with
    | packet a rest h hh sals hr' hs =>
      simp [Except.map] at hr
      obtain ⟨rfl, -⟩ := hr
      exact ⟨hd, ht, hf, a, h, rest, rfl, hh, (C98_applications h rest _).2 hr'⟩
    | _ => simp [Except.map] at hr
  | other => simp at hr

theorem addressed_pm {src : Option Int} {conf : Option UInt8} {q : Packet} {p : PM}
    (h : addressed src conf q = .pm p) : ∃ p', q = .pm p' ∧ p'.sals = p.sals := by
  cases q <;> simp [addressed] at h
  subst h
  exact ⟨_, rfl, rfl⟩

/-- A point to multipoint packet comes from such a message. -/
theorem body_pm {m : Bytes} {c : Nat} {cs fp dm : Bool} {conf : Option UInt8} {p : PM} {n : Nat}
    (h : decodeBody m c cs fp dm conf = .ok (some (.pm p), n)) :
    dm = false ∧ ∃ a data, Multipoint a data fp m ∧ a.decodeSals data = .ok p.sals := by
  cases fp with
  | false =>
    obtain ⟨r, h1, h2, -⟩ := (C98_command m c cs dm conf _ n).1 h
    cases h1 with
    | type => simp at h2
    | refused => simp at h2
    | packet f d hf q k hp =>
      injection h2 with h2
      obtain ⟨p', rfl, hs⟩ := addressed_pm h2.symm
      obtain ⟨h3, h4, h5, app, a, data, rfl, ha, hd⟩ := payload_pm hp
      exact ⟨h3, a, data, .sent f app h4 h5 ha, hs ▸ hd⟩
  | true =>
    cases dm with
    | true =>
      exfalso
      match m with
      | [] => simp [decodeBody] at h
      | f :: m =>
        simp only [decodeBody, if_true] at h
        cases hd : DAT.ofCode (f &&& 0x07) with
        | error e => simp [hd] at h
        | ok dat =>
          rw [hd] at h
          simp only at h
          match m with
          | [] => simp at h
          | s :: m =>
            simp only at h
            have : ∀ q k, dispatch dat (f &&& 0x20 == 0x20) true m cs (Prio.ofBits (f >>> 6 &&& 0x03)) = .ok (q, k) →
                ∀ p, q ≠ .pm p := by
              intro q k hq p hp
              subst hp
              unfold dispatch at hq
              split at hq
              · cases hm : decodeDM m cs (Prio.ofBits (f >>> 6 &&& 0x03)) <;> simp [hm, bind, Except.bind, pure, Except.pure] at hq
              · simp only [if_true] at hq
                cases hm : decodeCal m <;> simp [hm, bind, Except.bind, pure, Except.pure] at hq
            cases hq : dispatch dat (f &&& 0x20 == 0x20) true m cs (Prio.ofBits (f >>> 6 &&& 0x03)) with
            | error e => simp [hq] at h
            | ok r =>
              obtain ⟨q, k⟩ := r
              rw [hq] at h
              simp only [Except.ok.injEq, Prod.mk.injEq, Option.some.injEq] at h
              have hn := this q k hq
              have h := h.1
              unfold attach at h
              simp only [Bool.not_true, Bool.false_eq_true, if_false] at h
              cases q <;> simp at h hn
              all_goals (split at h <;> cases h)
    | false =>
      obtain ⟨r, h1, h2, -⟩ := (C98_event m c cs conf _ n).1 h
      cases h1 with
      | type => simp at h2
      | short => simp at h2
      | refused => simp at h2
      | packet f s d hf q k hp =>
        injection h2 with h2
        obtain ⟨p', rfl, hs⟩ := addressed_pm h2.symm
        obtain ⟨h3, h4, h5, app, a, data, rfl, ha, hd⟩ := payload_pm hp
        exact ⟨h3, a, data, .received f s app h4 h5 ha, hs ▸ hd⟩

theorem hex_pm {t : Bytes} {c : Nat} {cs strict fp dm : Bool} {conf : Option UInt8} {p : PM} {n : Nat}
    (h : decodeHex t c cs strict fp dm conf = .ok (some (.pm p), n)) :
    dm = false ∧ Explains cs strict fp t p.sals (hexWarnings t cs strict fp dm) := by
  unfold decodeHex at h
  unfold hexWarnings
  by_cases hall : t.all isHex
  · rw [if_pos hall] at h ⊢
    cases hb : b16decode t with
    | error e => simp [hb] at h
    | ok m =>
      rw [hb] at h
      simp only at h ⊢
      have hp := (b16decode_iff t m).1 hb
      unfold decodeRaw at h
      unfold rawWarnings
      cases cs with
      | false =>
        simp only [Bool.false_eq_true, if_false] at h ⊢
        obtain ⟨rfl, a, data, h1, h2⟩ := body_pm h
        exact ⟨rfl, m, m, a, data, _, hp, .inl ⟨rfl, rfl⟩, h1, h2, (C154_warnings a data _).1 rfl,
          .inl ⟨.inl rfl, body_multipoint h1⟩⟩
      | true =>
        simp only [if_true] at h ⊢
        by_cases hm : m = []
        · subst hm; simp [validateChecksum] at h
        · rw [validateChecksum_eq hm] at h ⊢
          have hc : Carries true m m.dropLast := .inr ⟨rfl, m.getLast hm, (List.dropLast_concat_getLast hm).symm⟩
          simp only at h ⊢
          by_cases hz : SumsToZero m
          · have hz' := (sumsToZero_iff m).1 hz
            simp only [hz', decide_true, Bool.not_true, Bool.false_and, Bool.false_eq_true, if_false] at h ⊢
            obtain ⟨rfl, a, data, h1, h2⟩ := body_pm h
            exact ⟨rfl, m, _, a, data, _, hp, hc, h1, h2, (C154_warnings a data _).1 rfl,
              .inl ⟨.inr hz, body_multipoint h1⟩⟩
          · have hz' : ¬ sumBytes m % 256 = 0 := fun h => hz ((sumsToZero_iff m).2 h)
            cases strict with
            | true => simp [hz'] at h
            | false =>
              simp only [hz', decide_false, Bool.not_false, Bool.true_and, Bool.false_eq_true, if_false, if_true] at h ⊢
              obtain ⟨rfl, a, data, h1, h2⟩ := body_pm h
              exact ⟨rfl, m, _, a, data, _, hp, hc, h1, h2, (C154_warnings a data _).1 rfl,
                .inr ⟨rfl, rfl, hz, by rw [body_multipoint h1]⟩⟩
  · rw [if_neg hall] at h; simp at h

theorem hex_only {t : Bytes} {cs fp dm : Bool} (hw : hexWarnings t cs true fp dm ≠ []) :
    dm = false ∧ ∃ m b a data, HexPairs t m ∧ Carries cs m b ∧ Multipoint a data fp b ∧ (cs = true → SumsToZero m) ∧
      Warns a data (hexWarnings t cs true fp dm) := by
  unfold hexWarnings at hw ⊢
  by_cases hall : t.all isHex
  · rw [if_pos hall] at hw ⊢
    cases hb : b16decode t with
    | error e => rw [hb] at hw; exact absurd rfl hw
    | ok m =>
      rw [hb] at hw
      simp only at hw ⊢
      have hp := (b16decode_iff t m).1 hb
      unfold rawWarnings at hw ⊢
      cases cs with
      | false =>
        simp only [Bool.false_eq_true, if_false] at hw ⊢
        obtain ⟨rfl, a, data, h1⟩ := body_only hw
        exact ⟨rfl, m, m, a, data, hp, .inl ⟨rfl, rfl⟩, h1, by simp,
          (C154_warnings a data _).1 (body_multipoint h1).symm⟩
      | true =>
        simp only [if_true] at hw ⊢
        by_cases hm : m = []
        · subst hm; exact absurd rfl hw
        · rw [validateChecksum_eq hm] at hw ⊢
          have hc : Carries true m m.dropLast := .inr ⟨rfl, m.getLast hm, (List.dropLast_concat_getLast hm).symm⟩
          simp only at hw ⊢
          by_cases hz : sumBytes m % 256 = 0
          · simp only [hz, decide_true, Bool.not_true, Bool.false_eq_true, if_false] at hw ⊢
            obtain ⟨rfl, a, data, h1⟩ := body_only hw
            exact ⟨rfl, m, _, a, data, hp, hc, h1, fun _ => (sumsToZero_iff m).2 hz,
              (C154_warnings a data _).1 (body_multipoint h1).symm⟩
          · simp [hz] at hw
  · rw [if_neg hall] at hw; exact absurd rfl hw

theorem pciLine_of {l : Bytes} (hl : ¬ [0x0d, 0x0a] <:+: l)
    (hh : ∀ c, l.head? = some c → c ≠ 0x2b ∧ c ≠ 0x21 ∧ ¬ Code c) : PciLine l :=
  ⟨hl, fun c hc => ⟨(hh c hc).1, (hh c hc).2.1, fun h => (hh c hc).2.2 ((code_iff c).1 h)⟩⟩

/-- C154: the warnings for a point to multipoint packet received from the PCI: those for
its commands, and if the checksum is wrong, which is tolerated only when not strict, a
warning of that before. -/
theorem C154_received (d : Bytes) (cs strict : Bool) (p : PM) (n : Nat)
    (h : decodePacket d cs strict true = .ok (some (.pm p), n)) :
    ∃ t rest, d = t ++ 0x0d :: 0x0a :: rest ∧ Explains cs strict true t p.sals (packetWarnings d cs strict true) := by
  have h' := (C98_received d cs strict _ n).1 h
  generalize hx : (some (Packet.pm p), n) = x at h'
  cases h' with
  | line l rest r hl hh hr =>
    refine ⟨l, rest, rfl, ?_⟩
    rw [pci_line hl hh] at h
    unfold packetWarnings
    rw [if_pos rfl, framePci_line_any (pciLine_of hl hh)]
    simp only
    match l with
    | [] => simp [decodeLine] at h
    | a :: l =>
      simp only [decodeLine, lineWarnings, if_true] at h ⊢
      exact (hex_pm h).2
  | _ => simp at hx

/-- C154: the warnings for a point to multipoint packet that the PCI is sent; if the
character behind it is no confirmation code, which is tolerated only when not strict,
there is a warning of that before all others. -/
theorem C154_sent (d : Bytes) (cs strict : Bool) (p : PM) (n : Nat)
    (h : decodePacket d cs strict false = .ok (some (.pm p), n)) :
    ∃ t c rest ws, d = 0x5c :: t ++ c ++ 0x0d :: rest ∧ Explains cs strict false t p.sals ws ∧
      ((c = [] ∨ ∃ x, c = [x] ∧ Code x) ∧ packetWarnings d cs strict false = ws ∨
        ∃ x, c = [x] ∧ ¬ Code x ∧ strict = false ∧ packetWarnings d cs strict false = .confirmationCode :: ws) := by
  have h' := (C98_sent d cs strict _ n).1 h
  generalize hx : (some (Packet.pm p), n) = x at h'
  cases h' with
  | line l rest r h1 h2 h3 h4 h5 h6 hr =>
    rw [client_line ⟨h4, h3, h1, h2, h5, h6⟩] at h
    have hw : packetWarnings (l ++ 0x0d :: rest) cs strict false = lineWarnings l cs strict false := by
      unfold packetWarnings
      rw [if_neg (by simp), frameClient_line_any ⟨h4, h3, h1, h2, h5, h6⟩]
    rw [hw]
    have key : ∀ t cs dm, decodeConf t (l.length + 1) cs strict dm = .ok (some (.pm p), n) → dm = false ∧
        ∃ u c ws, t = u ++ c ∧ Explains cs strict false u p.sals ws ∧
          ((c = [] ∨ ∃ x, c = [x] ∧ Code x) ∧ confWarnings t cs strict dm = ws ∨
            ∃ x, c = [x] ∧ ¬ Code x ∧ strict = false ∧ confWarnings t cs strict dm = .confirmationCode :: ws) := by
      intro t cs dm h
      unfold decodeConf at h
      unfold confWarnings
      rcases List.eq_nil_or_concat t with rfl | ⟨u, x, rfl⟩
      · simp at h
      · simp only [List.concat_eq_append, List.getLast?_append, List.getLast?_singleton, Option.some_or,
          List.dropLast_concat] at h ⊢
        by_cases hxx : isHex x
        · rw [if_pos hxx] at h ⊢
          obtain ⟨h1, h2⟩ := hex_pm h
          exact ⟨h1, _, [], _, (List.append_nil _).symm, h2, .inl ⟨.inl rfl, rfl⟩⟩
        · rw [if_neg hxx] at h ⊢
          by_cases hc : x ∈ confirmationCodes
          · rw [if_neg (by simp [hc])] at h
            rw [if_neg (by simp [hc])]
            obtain ⟨h1, h2⟩ := hex_pm h
            exact ⟨h1, u, [x], _, rfl, h2, .inl ⟨.inr ⟨x, rfl, (code_iff x).1 hc⟩, rfl⟩⟩
          · rw [if_pos hc]
            cases strict with
            | true => rw [if_pos ⟨hc, rfl⟩] at h; simp at h
            | false =>
              rw [if_neg (by simp)] at h
              rw [if_neg (by simp)]
              obtain ⟨h1, h2⟩ := hex_pm h
              exact ⟨h1, u, [x], _, rfl, h2, .inr ⟨x, rfl, fun h => hc ((code_iff x).2 h), rfl, rfl⟩⟩
    match l with
    | [] => simp [decodeLine] at h
    | a :: l =>
      simp only [decodeLine, lineWarnings, Bool.false_eq_true, if_false] at h ⊢
      by_cases ha : a = 0x40
      · rw [if_pos ha] at h
        exact absurd (key _ _ _ h).1 (by simp)
      · rw [if_neg ha] at h ⊢
        by_cases hb : a = 0x5c
        · rw [if_pos hb] at h ⊢
          subst hb
          obtain ⟨-, u, c, ws, rfl, h1, h2⟩ := key _ _ _ h
          exact ⟨u, c, rest, ws, by simp, h1, h2⟩
        · rw [if_neg hb] at h
          exact absurd (key _ _ _ h).1 (by simp)
  | _ => simp at hx

/-- C154: what `decode_packet` reports for a line received from the PCI is, unless there
is a warning, everything that is in it. -/
theorem C154_message (d : Bytes) (p : PM) (n : Nat) (h : decodePacket d = .ok (some (.pm p), n)) :
    ∃ t rest b x a data, d = t ++ 0x0d :: 0x0a :: rest ∧ HexPairs t (b ++ [x]) ∧ SumsToZero (b ++ [x]) ∧
      Multipoint a data true b ∧ (packetWarnings d = [] ↔ AllReported a data p.sals) := by
  obtain ⟨t, rest, rfl, m, b, a, data, ws, h1, h2, h3, h4, h5, h6⟩ := C154_received d true true p n h
  rcases h2 with ⟨h2, -⟩ | ⟨-, x, rfl⟩
  · cases h2
  have hz : SumsToZero (b ++ [x]) := by
    rcases h6 with ⟨h6 | h6, -⟩ | ⟨-, h6, -⟩
    · cases h6
    · exact h6
    · cases h6
  refine ⟨t, rest, b, x, a, data, rfl, h1, hz, h3, ?_⟩
  have hws : packetWarnings (t ++ 0x0d :: 0x0a :: rest) = ws := by
    rcases h6 with ⟨-, h6⟩ | ⟨-, h6, -⟩
    · exact h6
    · cases h6
  rw [hws]
  have e1 := (C154_warnings a data ws).2 h5
  have e2 := C154_results a data
  rw [h4] at e2
  rw [← C154_silent]
  constructor
  · rintro rfl
    exact Prod.ext e1 e2
  · intro h
    rw [← e1, h]

theorem framePci_split {d l : Bytes} {n : Nat} (h : framePci d = .line l n) : ∃ rest, d = l ++ 0x0d :: 0x0a :: rest := by
  match d with
  | [] => simp [framePci] at h
  | c :: d =>
    simp only [framePci] at h
    repeat' split at h
    all_goals first
      | cases h; done
      | skip
    rename_i e he
    obtain ⟨h1, -⟩ := find_pair_split he
    injection h with h h'
    exact ⟨_, h ▸ h1⟩

theorem frameClient_split {d l : Bytes} {n : Nat} (h : frameClient d = .line l n) : ∃ rest, d = l ++ 0x0d :: rest := by
  by_cases hd : d = []
  · subst hd; simp [frameClient] at h
  · rw [frameClient_eq hd] at h
    have key : ∀ nlp, find endCommand d = some nlp → ∀ k, Framed.line (d.take nlp) k = .line l n → ∃ rest, d = l ++ 0x0d :: rest := by
      intro nlp he k h
      injection h with h h'
      exact ⟨_, h ▸ (find_single_split he).1⟩
    repeat' split at h
    all_goals first
      | (cases h; done)
      | (refine key _ ?_ _ h; assumption)

/-- C154: there is no other warning than for the commands of a message that is correct
up to them. -/
theorem C154_only (d : Bytes) (cs fp : Bool) (hw : packetWarnings d cs true fp ≠ []) :
    ∃ t rest m b a data, d = (if fp then t ++ 0x0d :: 0x0a :: rest else 0x5c :: t ++ rest) ∧ HexPairs t m ∧
      Carries cs m b ∧ (cs = true → SumsToZero m) ∧ Multipoint a data fp b ∧ Warns a data (packetWarnings d cs true fp) := by
  cases fp with
  | true =>
    unfold packetWarnings at hw ⊢
    rw [if_pos rfl] at hw ⊢
    cases hf : framePci d with
    | result p n => rw [hf] at hw; exact absurd rfl hw
    | line l n =>
      rw [hf] at hw
      obtain ⟨rest, rfl⟩ := framePci_split hf
      match l with
      | [] => exact absurd rfl hw
      | a :: l =>
        simp only [lineWarnings, if_true] at hw ⊢
        obtain ⟨-, m, b, a', data, h1, h2, h3, h4, h5⟩ := hex_only hw
        exact ⟨_, rest, m, b, a', data, rfl, h1, h2, h4, h3, h5⟩
  | false =>
    unfold packetWarnings at hw ⊢
    rw [if_neg (by simp)] at hw ⊢
    cases hf : frameClient d with
    | result p n => rw [hf] at hw; exact absurd rfl hw
    | line l n =>
      rw [hf] at hw
      obtain ⟨rest, rfl⟩ := frameClient_split hf
      have key : ∀ t cs dm, confWarnings t cs true dm ≠ [] → dm = false ∧ ∃ u c, t = u ++ c ∧ ∃ m b a data,
          HexPairs u m ∧ Carries cs m b ∧ Multipoint a data false b ∧ (cs = true → SumsToZero m) ∧
            Warns a data (confWarnings t cs true dm) := by
        intro t cs dm h
        unfold confWarnings at h ⊢
        rcases List.eq_nil_or_concat t with rfl | ⟨u, x, rfl⟩
        · exact absurd rfl h
        · simp only [List.concat_eq_append, List.getLast?_append, List.getLast?_singleton, Option.some_or,
            List.dropLast_concat] at h ⊢
          by_cases hxx : isHex x
          · rw [if_pos hxx] at h ⊢
            obtain ⟨h1, h2⟩ := hex_only h
            exact ⟨h1, _, [], (List.append_nil _).symm, h2⟩
          · rw [if_neg hxx] at h ⊢
            by_cases hc : x ∈ confirmationCodes
            · rw [if_neg (by simp [hc])] at h ⊢
              obtain ⟨h1, h2⟩ := hex_only h
              exact ⟨h1, u, [x], rfl, h2⟩
            · rw [if_pos hc] at h; exact absurd rfl h
      match l with
      | [] => exact absurd rfl hw
      | a :: l =>
        simp only [lineWarnings, Bool.false_eq_true, if_false] at hw ⊢
        by_cases ha : a = 0x40
        · rw [if_pos ha] at hw
          exact absurd (key _ _ _ hw).1 (by simp)
        · rw [if_neg ha] at hw ⊢
          by_cases hb : a = 0x5c
          · rw [if_pos hb] at hw ⊢
            subst hb
            obtain ⟨-, u, c, rfl, m, b, a', data, h1, h2, h3, h4, h5⟩ := key _ _ _ hw
            exact ⟨u, c ++ 0x0d :: rest, m, b, a', data, by simp, h1, h2, h4, h3, h5⟩
          · rw [if_neg hb] at hw
            exact absurd (key _ _ _ hw).1 (by simp)

theorem body_direct (b : Bytes) : bodyWarnings b false true = [] := by
  unfold bodyWarnings dispatchWarnings
  repeat' split
  all_goals first | rfl | simp_all

theorem hex_direct {t : Bytes} {cs strict : Bool} {w : Warning} (hw : w ∈ hexWarnings t cs strict false true) :
    strict = false ∧ cs = true ∧ ∃ m, w = .checksum m ∧ HexPairs t m ∧ ¬ SumsToZero m := by
  unfold hexWarnings at hw
  by_cases hall : t.all isHex
  · rw [if_pos hall] at hw
    cases hb : b16decode t with
    | error e => rw [hb] at hw; simp at hw
    | ok m =>
      rw [hb] at hw
      simp only [rawWarnings, body_direct] at hw
      cases cs with
      | false => simp at hw
      | true =>
        simp only [if_true] at hw
        by_cases hm : m = []
        · subst hm; simp [validateChecksum] at hw
        · rw [validateChecksum_eq hm] at hw
          simp only at hw
          by_cases hz : sumBytes m % 256 = 0
          · simp [hz] at hw
          · cases strict with
            | true => simp [hz] at hw
            | false =>
              simp only [hz, decide_false, Bool.not_false, if_true, Bool.false_eq_true, if_false,
                List.mem_singleton] at hw
              exact ⟨rfl, rfl, m, hw, (b16decode_iff t m).1 hb, fun h => hz ((sumsToZero_iff m).1 h)⟩
  · rw [if_neg hall] at hw; simp at hw

/-- C154: of a line for the PCI itself, which begins with no backslash, there is only a
warning that its confirmation code is not one or that its checksum is wrong, and neither
when strict.  Of its checksum there is none when it begins with `@`. -/
theorem C154_direct (c : UInt8) (t : Bytes) (cs strict : Bool) (hc : c ≠ 0x5c) (w : Warning)
    (hw : w ∈ packetWarnings (c :: t) cs strict false) :
    strict = false ∧ (w = .confirmationCode ∨
      cs = true ∧ c ≠ 0x40 ∧ ∃ m u rest, w = .checksum m ∧ c :: t = u ++ rest ∧ HexPairs u m ∧ ¬ SumsToZero m) := by
  unfold packetWarnings at hw
  rw [if_neg (by simp)] at hw
  cases hf : frameClient (c :: t) with
  | result p n => rw [hf] at hw; simp at hw
  | line l n =>
    rw [hf] at hw
    obtain ⟨rest, hl⟩ := frameClient_split hf
    have key : ∀ t cs, w ∈ confWarnings t cs strict true → strict = false ∧ (w = .confirmationCode ∨
        cs = true ∧ ∃ m u v, w = .checksum m ∧ t = u ++ v ∧ HexPairs u m ∧ ¬ SumsToZero m) := by
      intro t cs h
      unfold confWarnings at h
      rcases List.eq_nil_or_concat t with rfl | ⟨u, x, rfl⟩
      · simp at h
      · simp only [List.concat_eq_append, List.getLast?_append, List.getLast?_singleton, Option.some_or,
          List.dropLast_concat] at h ⊢
        split at h
        · obtain ⟨h1, h2, m, h3, h4, h5⟩ := hex_direct h
          exact ⟨h1, .inr ⟨h2, m, _, [], h3, (List.append_nil _).symm, h4, h5⟩⟩
        · split at h
          · cases strict with
            | true => simp at h
            | false =>
              simp only [Bool.false_eq_true, if_false, List.mem_cons] at h
              rcases h with h | h
              · exact ⟨rfl, .inl h⟩
              · obtain ⟨h1, h2, m, h3, h4, h5⟩ := hex_direct h
                exact ⟨h1, .inr ⟨h2, m, u, [x], h3, rfl, h4, h5⟩⟩
          · obtain ⟨h1, h2, m, h3, h4, h5⟩ := hex_direct h
            exact ⟨h1, .inr ⟨h2, m, u, [x], h3, rfl, h4, h5⟩⟩
    match l with
    | [] => simp [lineWarnings] at hw
    | a :: l =>
      have ha : a = c := by simp at hl; exact hl.1.symm
      subst ha
      simp only [lineWarnings, Bool.false_eq_true, if_false] at hw
      by_cases ha : a = 0x40
      · rw [if_pos ha] at hw
        obtain ⟨h1, h2 | ⟨h2, -⟩⟩ := key _ _ hw
        · exact ⟨h1, .inl h2⟩
        · cases h2
      · rw [if_neg ha, if_neg hc] at hw
        obtain ⟨h1, h2 | ⟨h2, m, u, v, h3, h4, h5⟩⟩ := key _ _ hw
        · exact ⟨h1, .inl h2⟩
        · exact ⟨h1, .inr ⟨h2, ha, m, u, v ++ 0x0d :: rest, h3, by rw [hl, h4, List.append_assoc], h5⟩⟩

/-- A recall of parameters whose checksum is wrong, and the same line as a BASIC one. -/
example :
    packetWarnings (ascii "2101FF\r") true false false = [.checksum [0x21, 0x01, 0xff]] ∧
    packetWarnings (ascii "@2101FF\r") true false false = [] := by
  exact ⟨by decide +kernel, by decide +kernel⟩

/-- Two lights, the second of which is dropped with a warning; a request of the clock
with another argument; a status request that is cut off; a wrong checksum that is
tolerated; and a message that is reported in full. -/
example :
    AppHandler.lighting.decodeSalsW [0x79, 0x01, 0x55, 0x02] = ([.lightingUnknown 0x55], .ok [.lightOn 1]) ∧
    AppHandler.clock.decodeSalsW [0x11, 0x07, 0x11, 0x03] = ([.refreshArgument 7], .ok [.clockRequest]) ∧
    AppHandler.statusRequest.decodeSalsW [0x7a, 0x38] = ([.statusIncomplete], .error .indexError) ∧
    packetWarnings (ascii "05FA380079014F\r\n") = [] ∧
    packetWarnings (ascii "05FA3800790100\r\n") true false = [.checksum [0x05, 0xfa, 0x38, 0x00, 0x79, 0x01, 0x00]] ∧
    packetWarnings (ascii "\\0538007955!\r") false false false = [.confirmationCode] := by
  refine ⟨by decide +kernel, ?_, by decide +kernel, by decide +kernel, by decide +kernel, by decide +kernel⟩
  rw [skipped_w (.otherRequest 0x07 [0x11, 0x03] (by decide)) (.request 0x07 _ (by decide)), command_w (.request []),
    (nil_w _).1]
  rfl

/-- All that is in a message with two lights, and not all of one with a ramp that has no
level. -/
example :
    AllReported .lighting [0x79, 0x01, 0x01, 0x02] [.lightOn 1, .lightOff 2] ∧
    (∀ l, ¬ AllReported .lighting [0x79, 0x01, 0x02, 0x05] l) ∧
    Warns .lighting [0x79, 0x01, 0x02, 0x05] [.rampWithoutLevel] := by
  refine ⟨(C154_silent _ _ _).1 (by decide +kernel), fun l h => ?_, (C154_warnings _ _ _).1 (by decide +kernel)⟩
  have := (C154_silent _ _ _).2 h
  have h1 : (AppHandler.lighting.decodeSalsW [0x79, 0x01, 0x02, 0x05]).1 = [.rampWithoutLevel] := by decide +kernel
  rw [this] at h1
  cases h1

end CBus.Props
