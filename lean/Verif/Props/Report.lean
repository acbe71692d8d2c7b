import Verif.Lemmas.Report
import Verif.Spec.Report

/-! # C07-C11: Manchester coding and status reports -/

namespace CBus.Props
open CBus CBus.Spec

/-! ## C07 -/

/-- C07: an encoded level is the Manchester code word of `v mod 256`, and
decodes to `v mod 256`. -/
theorem C07_manchester_roundtrip (v : Int) :
    ∃ b0 b1, manchesterEncode (some v) = .ok [b0, b1] ∧
      ((b0.toNat + 256 * b1.toNat : Nat)) = manchesterWord (v % 256).toNat ∧
      ∃ w, manchesterDecode [b0, b1] = .ok (some w) ∧ (w.toNat : Int) = v % 256 := by
  refine ⟨(manchesterPair (lowByte v)).1, (manchesterPair (lowByte v)).2, by simp [manchesterEncode], ?_,
    lowByte v, by simp [manchesterDecode, manchesterDecode2_pair], lowByte_toNat v⟩
  have h : ∀ b : UInt8, (manchesterPair b).1.toNat + 256 * (manchesterPair b).2.toNat =
      manchesterWord b.toNat := by apply forall_byte; decide +kernel
  rw [h]; congr 1; have := lowByte_toNat v; omega

/-- C07 for byte-sized levels: exactly the level comes back. -/
theorem C07_manchester_byte (v : Int) (h0 : 0 ≤ v) (h1 : v < 256) :
    ∃ b, manchesterEncode (some v) = .ok b ∧ b.length = 2 ∧
      ∃ w, manchesterDecode b = .ok (some w) ∧ (w.toNat : Int) = v := by
  obtain ⟨b0, b1, e, -, w, h, hw⟩ := C07_manchester_roundtrip v
  exact ⟨_, e, rfl, w, h, by omega⟩

/-- C07 for a missing group. -/
theorem C07_manchester_missing :
    manchesterEncode none = .ok [0, 0] ∧ manchesterDecode [0, 0] = .ok none := by decide

example : manchesterEncode (some 0x57) = .ok [0x95, 0x99] ∧
    manchesterDecode [0x95, 0x99] = .ok (some 0x57) ∧
    manchesterEncode (some 0x157) = .ok [0x95, 0x99] := by decide

/-! ## C08 -/

/-- C08: flipping any one bit of a coded level gives something that decodes to
"no level". -/
theorem C08_single_bit_noise (v : Int) (b0 b1 : UInt8)
    (h : manchesterEncode (some v) = .ok [b0, b1]) (i : Nat) (hi : i < 8) :
    manchesterDecode [b0 ^^^ UInt8.ofNat (2 ^ i), b1] = .ok none ∧
    manchesterDecode [b0, b1 ^^^ UInt8.ofNat (2 ^ i)] = .ok none := by
  have hp : (manchesterPair (lowByte v)) = (b0, b1) := by
    simp [manchesterEncode] at h
    exact Prod.ext h.1 h.2
  have key : ∀ b : UInt8, ∀ i : Fin 8,
      manchesterDecode [(manchesterPair b).1 ^^^ UInt8.ofNat (2 ^ i.val), (manchesterPair b).2] = .ok none ∧
      manchesterDecode [(manchesterPair b).1, (manchesterPair b).2 ^^^ UInt8.ofNat (2 ^ i.val)] = .ok none := by
    apply forall_byte; decide +kernel
  have := key (lowByte v) ⟨i, hi⟩
  rwa [hp] at this

/-- C08, in general: a level is reported only for its own code word. -/
theorem C08_only_codewords (b0 b1 w : UInt8) :
    manchesterDecode [b0, b1] = .ok (some w) ↔ manchesterEncode (some w.toNat) = .ok [b0, b1] := by
  constructor
  · intro h
    simp only [manchesterDecode, Except.ok.injEq] at h
    have := manchesterDecode2_some b0 b1 w h
    simp [manchesterEncode, this]
  · intro h
    simp [manchesterEncode] at h
    simp [manchesterDecode, ← h.1, ← h.2, manchesterDecode2_pair]

/-- C08 for half a code word: a byte that begins a code word is missed by its other half (an exception), and of any other
byte it is told at once that there is no level. -/
theorem C08_half (b0 : UInt8) :
    (manchesterDecode [b0] = .error .indexError ↔ ∃ (v : Int) (b1 : UInt8), manchesterEncode (some v) = .ok [b0, b1]) ∧
    (manchesterDecode [b0] = .ok none ∨ manchesterDecode [b0] = .error .indexError) := by
  have h1 : ∀ b : UInt8, manchesterDecode [b] = .error .indexError → ∃ w : UInt8, (manchesterPair w).1 = b := by
    intro b h
    have key : ∀ b : UInt8, manchesterDecode [b] = .error .indexError → ∃ w : Fin 256, (manchesterPair (UInt8.ofNat w)).1 = b := by
      apply forall_byte; decide +kernel
    obtain ⟨w, hw⟩ := key b h
    exact ⟨_, hw⟩
  have h2 : ∀ w : UInt8, manchesterDecode [(manchesterPair w).1] = .error .indexError := by
    apply forall_byte; decide +kernel
  have h3 : ∀ b : UInt8, manchesterDecode [b] = .ok none ∨ manchesterDecode [b] = .error .indexError := by
    apply forall_byte; decide +kernel
  refine ⟨⟨fun h => ?_, ?_⟩, h3 b0⟩
  · obtain ⟨w, hw⟩ := h1 b0 h
    have hl : lowByte (w.toNat : Int) = w := UInt8.toNat.inj (by have := lowByte_toNat (w.toNat : Int); have := w.toNat_lt; omega)
    exact ⟨w.toNat, (manchesterPair w).2, by simp [manchesterEncode, hl, hw]⟩
  · rintro ⟨v, b1, h⟩
    simp [manchesterEncode] at h
    rw [← h.1]
    exact h2 _

example : manchesterDecode [0x95] = .error .indexError ∧ manchesterDecode [0x94] = .ok none := by decide

/-- C08, nibble form: a level is reported exactly when all four nibbles are
legal. -/
theorem C08_legal_nibbles (b0 b1 : UInt8) :
    (∃ w, manchesterDecode [b0, b1] = .ok (some w)) ↔
      LegalNibble (b0.toNat % 16) ∧ LegalNibble (b0.toNat / 16) ∧
      LegalNibble (b1.toNat % 16) ∧ LegalNibble (b1.toNat / 16) := by
  have lo : ∀ b : UInt8, (nibbleIndex (b &&& 0xf)).isSome ↔ LegalNibble (b.toNat % 16) := by
    apply forall_byte; decide +kernel
  have hi : ∀ b : UInt8, (nibbleIndex (b >>> 4)).isSome ↔ LegalNibble (b.toNat / 16) := by
    apply forall_byte; decide +kernel
  rw [← lo b0, ← hi b0, ← lo b1, ← hi b1]
  simp only [manchesterDecode, Except.ok.injEq, manchesterDecode2]
  cases nibbleIndex (b0 &&& 0xf) <;> cases nibbleIndex (b0 >>> 4) <;>
    cases nibbleIndex (b1 &&& 0xf) <;> cases nibbleIndex (b1 >>> 4) <;> simp

/-- C08, inputs of other lengths: nothing at all raises `IndexError`; a single
byte raises it exactly when both its nibbles are legal, and is no level
otherwise; bytes after the second make no difference. -/
theorem C08_other_lengths (b0 b1 : UInt8) (more : Bytes) :
    manchesterDecode [] = .error .indexError ∧
    (LegalNibble (b0.toNat % 16) ∧ LegalNibble (b0.toNat / 16) →
      manchesterDecode [b0] = .error .indexError) ∧
    (¬ (LegalNibble (b0.toNat % 16) ∧ LegalNibble (b0.toNat / 16)) →
      manchesterDecode [b0] = .ok none) ∧
    manchesterDecode (b0 :: b1 :: more) = manchesterDecode [b0, b1] := by
  have lo : ∀ b : UInt8, (nibbleIndex (b &&& 0xf)).isSome ↔ LegalNibble (b.toNat % 16) := by
    apply forall_byte; decide +kernel
  have hi : ∀ b : UInt8, (nibbleIndex (b >>> 4)).isSome ↔ LegalNibble (b.toNat / 16) := by
    apply forall_byte; decide +kernel
  rw [← lo b0, ← hi b0]
  refine ⟨rfl, ?_, ?_, rfl⟩ <;>
    simp only [manchesterDecode] <;>
    cases nibbleIndex (b0 &&& 0xf) <;> cases nibbleIndex (b0 >>> 4) <;> simp

example : manchesterDecode [0x95] = .error .indexError ∧
    manchesterDecode [0x94] = .ok none ∧ manchesterDecode [0xf5] = .ok none := by decide

example : manchesterEncode (some 0x57) = .ok [0x95, 0x99] ∧
    manchesterDecode [0x95 ^^^ UInt8.ofNat (2 ^ 3), 0x99] = .ok none := by decide

/-! ## C09 -/

/-- C09: with room for two bytes the call succeeds, keeps the length, changes
only the bytes at `off` and `off + 1`, and changes nothing for `None`. -/
theorem C09_encode_in_place (value : Option Int) (buf : Bytes) (off : Nat)
    (h : off + 2 ≤ buf.length) :
    ∃ buf', manchesterEncode value buf off = .ok buf' ∧ buf'.length = buf.length ∧
      (∀ i, i ≠ off → i ≠ off + 1 → buf'[i]? = buf[i]?) ∧
      (value = none → buf' = buf) ∧
      (∀ v, value = some v → ∃ b0 b1, manchesterEncode (some v) = .ok [b0, b1] ∧
        buf'[off]? = some b0 ∧ buf'[off + 1]? = some b1) := by
  unfold manchesterEncode
  rw [if_neg (by omega)]
  cases value with
  | none => exact ⟨buf, rfl, rfl, fun _ _ _ => rfl, fun _ => rfl, fun v hv => by cases hv⟩
  | some v =>
    refine ⟨_, rfl, by simp, ?_, by simp, ?_⟩
    · intro i h1 h2
      simp [Ne.symm h1, Ne.symm h2]
    · intro w hw
      injection hw with hw; subst hw
      refine ⟨_, _, by simp; exact ⟨rfl, rfl⟩, ?_, ?_⟩
      · simp [List.getElem?_set]; omega
      · simp [List.getElem?_set]; omega

/-- C09: too little room raises `IndexError` (and returns no buffer). -/
theorem C09_too_small (value : Option Int) (buf : Bytes) (off : Nat) :
    manchesterEncode value buf off = .error .indexError ↔ buf.length < off + 2 := by
  unfold manchesterEncode
  split
  · simp_all
  · cases value <;> simp_all

example : manchesterEncode (some 255) [1, 2, 3, 4] 1 = .ok [1, 0x55, 0x55, 4] ∧
    manchesterEncode (some 255) [1, 2, 3, 4] 3 = .error .indexError := by decide

/-- The offset 0 and above: `manchesterEncode`. -/
theorem C09_from_start (value : Option Int) (buf : Bytes) (off : Nat) :
    manchesterEncodeAt value buf off = manchesterEncode value buf off := by
  unfold manchesterEncodeAt manchesterEncode
  by_cases h : buf.length < off + 2
  · rw [if_pos h, if_pos (by omega)]
  · rw [if_neg h, if_neg (by omega)]
    cases value with
    | none => rfl
    | some v =>
      have h1 : ¬ ((off : Int) < 0) := by omega
      have h2 : ¬ ((off : Int) + 1 < 0) := by omega
      have h3 : (0 : Int) ≤ off ∧ (off : Int) < buf.length := by omega
      have h4 : (0 : Int) ≤ off + 1 ∧ (off : Int) + 1 < buf.length := by omega
      simp only [setItem, h1, h2, if_false, h3, List.length_set, h4, and_self, if_true, Int.toNat_natCast]
      rfl

/-- An offset below 0 counts from the end of the buffer, as any index of Python; that of
the second byte is one more, so that after the last byte comes the first. Nothing but the
two bytes changes, and the call raises if the first of them is before the buffer. -/
theorem C09_from_end (value : Option Int) (buf : Bytes) (k : Nat) (hk : 0 < k) :
    (manchesterEncodeAt value buf (-k) = .error .indexError ↔ (value ≠ none ∧ buf.length < k) ∨ buf.length + k < 2) ∧
    (k ≤ buf.length → 2 ≤ buf.length + k →
      ∃ buf', manchesterEncodeAt value buf (-k) = .ok buf' ∧ buf'.length = buf.length ∧
        (∀ i, i ≠ buf.length - k → (i ≠ (buf.length - k + 1) % buf.length) → buf'[i]? = buf[i]?) ∧
        (value = none → buf' = buf) ∧
        (∀ v, value = some v → 2 ≤ buf.length → ∃ b0 b1, manchesterEncode (some v) = .ok [b0, b1] ∧
          buf'[buf.length - k]? = some b0 ∧ buf'[(buf.length - k + 1) % buf.length]? = some b1)) := by
  unfold manchesterEncodeAt
  by_cases hs : (buf.length : Int) < -(k : Int) + 2
  · rw [if_pos hs]
    exact ⟨⟨fun _ => Or.inr (by omega), fun _ => rfl⟩, fun _ h => by omega⟩
  rw [if_neg hs]
  cases value with
  | none =>
    refine ⟨⟨fun h => (nomatch h), fun h => ?_⟩,
      fun _ _ => ⟨buf, rfl, rfl, fun _ _ _ => rfl, fun _ => rfl, fun v h => by cases h⟩⟩
    rcases h with ⟨h, -⟩ | h
    · exact absurd rfl h
    · omega
  | some v =>
    by_cases hl : buf.length < k
    · have h1 : ¬ (0 ≤ -(k : Int) + buf.length ∧ -(k : Int) + buf.length < buf.length) := by omega
      have h0 : -(k : Int) < 0 := by omega
      simp only [setItem, h0, if_true, h1, if_false]
      exact ⟨⟨fun _ => Or.inl ⟨by simp, hl⟩, fun _ => trivial⟩, fun h => by omega⟩
    · have h0 : -(k : Int) < 0 := by omega
      have h1 : 0 ≤ -(k : Int) + buf.length ∧ -(k : Int) + buf.length < buf.length := by omega
      have e1 : (-(k : Int) + buf.length).toNat = buf.length - k := by omega
      have key : ∀ (b0 b1 : UInt8), (match setItem buf (-(k : Int)) b0 with
          | .ok b => setItem b (-(k : Int) + 1) b1
          | .error e => .error e) = .ok ((buf.set (buf.length - k) b0).set ((buf.length - k + 1) % buf.length) b1) := by
        intro b0 b1
        simp only [setItem, h0, if_true, h1, and_self, e1, List.length_set]
        by_cases hk1 : k = 1
        · subst hk1
          have e2 : (buf.length - 1 + 1) % buf.length = 0 := by
            rw [Nat.sub_add_cancel (by omega)]; exact Nat.mod_self _
          rw [e2]
          have h3 : ¬ (-((1 : Nat) : Int) + 1 < 0) := by omega
          rw [if_neg h3, if_pos (by omega)]
          rfl
        · have h3 : -(k : Int) + 1 < 0 := by omega
          have h4 : 0 ≤ -(k : Int) + 1 + buf.length ∧ -(k : Int) + 1 + buf.length < buf.length := by omega
          have e2 : (-(k : Int) + 1 + buf.length).toNat = buf.length - k + 1 := by omega
          rw [if_pos h3, if_pos h4, e2, Nat.mod_eq_of_lt (by omega)]
      have key' := key (manchesterPair (lowByte v)).1 (manchesterPair (lowByte v)).2
      refine ⟨⟨fun h => (nomatch key'.symm.trans h), fun h => by omega⟩, fun _ _ => ⟨_, key', by simp, ?_, by simp, ?_⟩⟩
      · intro i g1 g2
        rw [List.getElem?_set_ne (Ne.symm g2), List.getElem?_set_ne (Ne.symm g1)]
      · intro w hw h2
        injection hw with hw; subst hw
        have hm : (buf.length - k + 1) % buf.length < buf.length := Nat.mod_lt _ (by omega)
        have hne : (buf.length - k + 1) % buf.length ≠ buf.length - k := by
          by_cases hk1 : k = 1
          · subst hk1
            rw [Nat.sub_add_cancel (by omega), Nat.mod_self]; omega
          · rw [Nat.mod_eq_of_lt (by omega)]; omega
        refine ⟨_, _, by simp [manchesterEncode]; exact ⟨rfl, rfl⟩, ?_, ?_⟩
        · rw [List.getElem?_set_ne hne, List.getElem?_set_self (by omega)]
        · rw [List.getElem?_set_self (by simpa using hm)]

example : manchesterEncodeAt (some 255) [1, 2, 3, 4] (-2) = .ok [1, 2, 0x55, 0x55] ∧
    manchesterEncodeAt (some 1) [1, 2, 3, 4] (-1) = .ok [0xaa, 2, 3, 0xa9] ∧
    manchesterEncodeAt (some 255) [1, 2, 3, 4] (-5) = .error .indexError ∧
    manchesterEncodeAt none [1, 2, 3, 4] (-5) = .ok [1, 2, 3, 4] := by decide

/-! ## C10 -/

/-- C10: level reports with levels in range are reproduced; in general each
level is reduced modulo 256. -/
theorem C10_level_roundtrip (states : List (Option Int)) :
    ∃ b, levelEncode states = .ok b ∧ b.length = 2 * states.length ∧
      levelDecode b = .ok (states.map (Option.map (· % 256))) ∧
      ((∀ s ∈ states, LevelOk s) → levelDecode b = .ok states) := by
  refine ⟨_, levelEncode_eq states, flatMap_levelBytes_length states, ?_⟩
  have h : levelDecode (states.flatMap levelBytes) = .ok (states.map (Option.map (· % 256))) := by
    unfold levelDecode
    rw [flatMap_levelBytes_length, if_neg (by omega), levelDecodeGo_bytes]
  refine ⟨h, ?_⟩
  intro hs
  rw [h]
  congr 1
  conv => rhs; rw [← List.map_id states]
  apply List.map_congr_left
  intro s hmem
  have := hs s hmem
  cases s with
  | none => rfl
  | some v =>
    simp only [LevelOk] at this
    simp only [Option.map_some, id]
    congr 1; omega

/-- C10: decoding raises `ValueError` exactly on an odd number of bytes, and
otherwise gives one level per two bytes. -/
theorem C10_level_decode (b : Bytes) :
    (levelDecode b = .error .valueError ↔ b.length % 2 = 1) ∧
    (∀ s, levelDecode b = .ok s → 2 * s.length = b.length) := by
  have len : ∀ n (b : Bytes), b.length ≤ n → (levelDecodeGo b).length = b.length / 2 := by
    intro n
    induction n with
    | zero => intro b hb; simp at hb; subst hb; rfl
    | succ n ih =>
      intro b hb
      match b with
      | [] => rfl
      | [_] => simp [levelDecodeGo]
      | x :: y :: rest =>
        simp only [levelDecodeGo, List.length_cons]
        rw [ih rest (by simp at hb; omega)]; omega
  unfold levelDecode
  constructor
  · split <;> simp <;> omega
  · intro s hs
    split at hs
    · cases hs
    · injection hs with hs; subst hs; rw [len _ b (Nat.le_refl _)]; omega

example : levelEncode [some 0x57, none, some 255] = .ok [0x95, 0x99, 0, 0, 0x55, 0x55] ∧
    levelDecode [0x95, 0x99, 0, 0, 0x55, 0x55] = .ok [some 0x57, none, some 255] ∧
    levelDecode [0x95] = .error .valueError := by decide

/-! ## C11 -/

/-- C11, bytes to states to bytes. -/
theorem C11_binary_bytes (b : Bytes) :
    binaryEncode (binaryDecode b) = .ok b ∧ (binaryDecode b).length = 4 * b.length := by
  refine ⟨?_, binaryDecode_length b⟩
  unfold binaryEncode
  rw [binaryPad_of_mod (by rw [binaryDecode_length]; omega)]
  exact binaryPack_decode b

/-- C11, states to bytes to states: the list comes back, followed by fewer than
four `MISSING` entries that make its length a multiple of four. -/
theorem C11_binary_states (states : List GroupState) :
    ∃ b k, binaryEncode states = .ok b ∧ k < 4 ∧ (states.length + k) = 4 * b.length ∧
      binaryDecode b = states ++ List.replicate k .missing ∧
      (states.length % 4 = 0 → k = 0) := by
  obtain ⟨b, h1, h2, h3⟩ := binaryEncode_ok states
  unfold binaryPad at h2 h3
  simp only at h2 h3
  split at h2
  · rename_i hr
    rw [if_pos hr] at h3
    refine ⟨b, 4 - states.length % 4, h1, by omega, by simp at h3; omega, h2, by omega⟩
  · rename_i hr
    rw [if_neg hr] at h3
    exact ⟨b, 0, h1, by omega, by omega, by simpa using h2, by omega⟩

/-- C11, the wire layout: the state of group `i` is the two bits at `2 * (i mod
4)` of byte `i / 4`. -/
theorem C11_binary_layout (b : Bytes) (i : Nat) (hi : i < b.length * 4) :
    (binaryDecode b)[i]?.map (fun g => g.code.toNat) =
      b[i / 4]?.map (fun c => c.toNat / 4 ^ (i % 4) % 4) := by
  induction b generalizing i with
  | nil => simp at hi
  | cons c cs ih =>
    match i with
    | 0 =>
      have : ∀ c : UInt8, (GroupState.ofBits (c &&& 3)).code.toNat = c.toNat / 4 ^ 0 % 4 := by
        apply forall_byte; decide +kernel
      simpa [binaryDecode] using this c
    | 1 =>
      have : ∀ c : UInt8, (GroupState.ofBits (c >>> 2 &&& 3)).code.toNat = c.toNat / 4 ^ 1 % 4 := by
        apply forall_byte; decide +kernel
      simpa [binaryDecode] using this c
    | 2 =>
      have : ∀ c : UInt8, (GroupState.ofBits (c >>> 4 &&& 3)).code.toNat = c.toNat / 4 ^ 2 % 4 := by
        apply forall_byte; decide +kernel
      simpa [binaryDecode] using this c
    | 3 =>
      have : ∀ c : UInt8, (GroupState.ofBits (c >>> 6 &&& 3)).code.toNat = c.toNat / 4 ^ 3 % 4 := by
        apply forall_byte; decide +kernel
      simpa [binaryDecode] using this c
    | i + 4 =>
      have := ih i (by simp at hi; omega)
      rw [show (i + 4) / 4 = i / 4 + 1 by omega, show (i + 4) % 4 = i % 4 by omega]
      simpa [binaryDecode] using this

example : binaryEncode [.on, .off, .error, .missing, .on] = .ok [0x39, 0x01] ∧
    binaryDecode [0x39, 0x01] = [.on, .off, .error, .missing, .on, .missing, .missing, .missing] := by
  decide

end CBus.Props
