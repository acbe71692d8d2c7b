import Verif.Model.Report
import Verif.Lemmas.Basic

/-! Helper lemmas about status reports. -/

namespace CBus

theorem manchesterDecode2_pair (v : UInt8) :
    manchesterDecode2 (manchesterPair v).1 (manchesterPair v).2 = some v := by
  revert v; apply forall_byte; decide +kernel

theorem byte_nibbles (b : UInt8) : b = (b &&& (0xf : UInt8)) ||| (b >>> (4 : UInt8)) <<< (4 : UInt8) := by
  revert b; apply forall_byte; decide +kernel

theorem nibbleIndex_spec (n i : UInt8) (h : nibbleIndex n = some i) : i < 4 ∧ nibbleOf i = n := by
  have key : ∀ n : UInt8, (nibbleIndex n).all (fun i => decide (i < 4 ∧ nibbleOf i = n)) = true := by
    apply forall_byte; decide +kernel
  have := key n
  rw [h] at this
  exact of_decide_eq_true this

theorem four_cases (i : UInt8) (h : i < 4) : i = 0 ∨ i = 1 ∨ i = 2 ∨ i = 3 := by
  revert i; apply forall_byte; decide +kernel

/-- Only code words decode, and each to the value it codes. -/
theorem manchesterDecode2_some (b0 b1 v : UInt8) (h : manchesterDecode2 b0 b1 = some v) :
    manchesterPair v = (b0, b1) := by
  unfold manchesterDecode2 at h
  cases h0 : nibbleIndex (b0 &&& 0xf) with
  | none => simp [h0] at h
  | some n0 =>
  cases h1 : nibbleIndex (b0 >>> 4) with
  | none => simp [h0, h1] at h
  | some n1 =>
  cases h2 : nibbleIndex (b1 &&& 0xf) with
  | none => simp [h0, h1, h2] at h
  | some n2 =>
  cases h3 : nibbleIndex (b1 >>> 4) with
  | none => simp [h0, h1, h2, h3] at h
  | some n3 =>
    simp only [h0, h1, h2, h3, Option.some.injEq] at h
    obtain ⟨l0, e0⟩ := nibbleIndex_spec _ _ h0
    obtain ⟨l1, e1⟩ := nibbleIndex_spec _ _ h1
    obtain ⟨l2, e2⟩ := nibbleIndex_spec _ _ h2
    obtain ⟨l3, e3⟩ := nibbleIndex_spec _ _ h3
    have r0 := byte_nibbles b0
    have r1 := byte_nibbles b1
    rw [← e0, ← e1] at r0
    rw [← e2, ← e3] at r1
    rw [r0, r1, ← h]
    clear h h0 h1 h2 h3 e0 e1 e2 e3 r0 r1
    rcases four_cases n0 l0 with rfl|rfl|rfl|rfl <;>
    rcases four_cases n1 l1 with rfl|rfl|rfl|rfl <;>
    rcases four_cases n2 l2 with rfl|rfl|rfl|rfl <;>
    rcases four_cases n3 l3 with rfl|rfl|rfl|rfl <;> decide

/-! ### Binary reports -/

theorem pack_unpack (c : UInt8) :
    ((GroupState.ofBits (c &&& 3)).code ||| (GroupState.ofBits (c >>> 2 &&& 3)).code <<< 2 |||
      (GroupState.ofBits (c >>> 4 &&& 3)).code <<< 4 |||
      (GroupState.ofBits (c >>> 6 &&& 3)).code <<< 6) = c := by
  revert c; apply forall_byte; decide +kernel

theorem unpack_pack (a b c d : GroupState) :
    let x := a.code ||| b.code <<< 2 ||| c.code <<< 4 ||| d.code <<< 6
    GroupState.ofBits (x &&& 3) = a ∧ GroupState.ofBits (x >>> 2 &&& 3) = b ∧
    GroupState.ofBits (x >>> 4 &&& 3) = c ∧ GroupState.ofBits (x >>> 6 &&& 3) = d := by
  cases a <;> cases b <;> cases c <;> cases d <;> decide

theorem binaryPack_decode : ∀ b : Bytes, binaryPack (binaryDecode b) = .ok b
  | [] => rfl
  | c :: cs => by simp [binaryDecode, binaryPack, binaryPack_decode cs, pack_unpack]

theorem binaryDecode_length (b : Bytes) : (binaryDecode b).length = 4 * b.length := by
  induction b with
  | nil => rfl
  | cons c cs ih => simp [binaryDecode, ih]; omega

theorem binaryPad_of_mod {s : List GroupState} (h : s.length % 4 = 0) : binaryPad s = s := by
  simp [binaryPad, h]

theorem binaryPad_length (s : List GroupState) : (binaryPad s).length % 4 = 0 := by
  unfold binaryPad
  simp only
  split
  · simp; omega
  · omega

/-- Packing a list whose length is a multiple of four. -/
theorem binaryPack_ok : ∀ s : List GroupState, s.length % 4 = 0 →
    ∃ b, binaryPack s = .ok b ∧ binaryDecode b = s ∧ 4 * b.length = s.length
  | [], _ => ⟨[], rfl, rfl, rfl⟩
  | [_], h => by simp at h
  | [_, _], h => by simp at h
  | [_, _, _], h => by simp at h
  | a :: b :: c :: d :: rest, h => by
    obtain ⟨r, h1, h2, h3⟩ := binaryPack_ok rest (by simp at h; omega)
    refine ⟨(a.code ||| b.code <<< 2 ||| c.code <<< 4 ||| d.code <<< 6) :: r, by simp [binaryPack, h1], ?_,
      by simp; omega⟩
    obtain ⟨e1, e2, e3, e4⟩ := unpack_pack a b c d
    simp only [binaryDecode, e1, e2, e3, e4, h2]

theorem binaryEncode_ok (s : List GroupState) :
    ∃ b, binaryEncode s = .ok b ∧ binaryDecode b = binaryPad s ∧ 4 * b.length = (binaryPad s).length :=
  binaryPack_ok _ (binaryPad_length s)

/-! ### Level reports -/

/-- The two bytes of one level. -/
def levelBytes : Option Int → Bytes
  | none => [0, 0]
  | some v => [(manchesterPair (lowByte v)).1, (manchesterPair (lowByte v)).2]

theorem levelEncodeGo_eq : ∀ (s : List (Option Int)) (i : Nat) (pre : Bytes), pre.length = i * 2 →
    levelEncodeGo s i (pre ++ List.replicate (s.length * 2) 0) = .ok (pre ++ s.flatMap levelBytes) := by
  intro s
  induction s with
  | nil => intro i pre _; simp [levelEncodeGo]
  | cons x xs ih =>
    intro i pre hp
    have e : List.replicate ((x :: xs).length * 2) (0 : UInt8) =
        0 :: 0 :: List.replicate (xs.length * 2) 0 := by
      rw [show (x :: xs).length * 2 = xs.length * 2 + 1 + 1 by simp; omega]
      simp [List.replicate_succ]
    have hm : manchesterEncode x (pre ++ 0 :: 0 :: List.replicate (xs.length * 2) 0) (i * 2) =
        .ok ((pre ++ levelBytes x) ++ List.replicate (xs.length * 2) 0) := by
      unfold manchesterEncode
      rw [if_neg (by simp; omega)]
      cases x with
      | none => simp [levelBytes]
      | some v =>
        simp only [levelBytes]
        rw [← hp]
        simp [List.set_append]
    rw [e]
    simp only [levelEncodeGo, hm]
    rw [ih (i + 1) (pre ++ levelBytes x)]
    · simp
    · cases x <;> simp [levelBytes] <;> omega

theorem levelEncode_eq (s : List (Option Int)) : levelEncode s = .ok (s.flatMap levelBytes) := by
  have := levelEncodeGo_eq s 0 [] rfl
  simpa [levelEncode] using this

theorem levelBytes_length (x : Option Int) : (levelBytes x).length = 2 := by
  cases x <;> rfl

theorem flatMap_levelBytes_length (s : List (Option Int)) :
    (s.flatMap levelBytes).length = 2 * s.length := by
  induction s with
  | nil => rfl
  | cons x xs ih => simp [levelBytes_length, ih]; omega

theorem levelDecodeGo_bytes (s : List (Option Int)) :
    levelDecodeGo (s.flatMap levelBytes) = s.map (Option.map (· % 256)) := by
  induction s with
  | nil => rfl
  | cons x xs ih =>
    cases x with
    | none => simp only [List.flatMap_cons, levelBytes, List.cons_append, List.nil_append,
        levelDecodeGo, ih, List.map_cons]; rfl
    | some v =>
      simp only [List.flatMap_cons, levelBytes, List.cons_append, List.nil_append,
        levelDecodeGo, ih, List.map_cons, manchesterDecode2_pair, Option.map_some, lowByte_toNat]

end CBus
