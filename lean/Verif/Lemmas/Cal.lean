import Verif.Lemmas.Report
import Verif.Model.Packet
import Verif.Spec.Cal

/-! Helper lemmas about CALs. -/

namespace CBus
open Spec

theorem replyHeader {k : Nat} (h : k < 32) :
    let c := UInt8.ofNat (0x80 ||| k)
    c &&& 0xe0 = 0x80 ∧ (c &&& 0x1f).toNat = k := by
  have : ∀ k : Fin 32, UInt8.ofNat (0x80 ||| k.val) &&& (0xe0 : UInt8) = 0x80 ∧
      (UInt8.ofNat (0x80 ||| k.val) &&& (0x1f : UInt8)).toNat = k.val := by decide +kernel
  exact this ⟨k, h⟩

theorem extendedHeader {k : Nat} (h : k < 256) :
    mkByte ((0xe0 ||| k : Nat) : Int) = .ok (UInt8.ofNat (0xe0 ||| k)) ∧
    UInt8.ofNat (0xe0 ||| k) &&& 0xe0 = 0xe0 ∧
    (UInt8.ofNat (0xe0 ||| k) &&& 0x1f).toNat = k % 32 := by
  have : ∀ k : Fin 256, mkByte ((0xe0 ||| k.val : Nat) : Int) = .ok (UInt8.ofNat (0xe0 ||| k.val)) ∧
      UInt8.ofNat (0xe0 ||| k.val) &&& (0xe0 : UInt8) = 0xe0 ∧
      (UInt8.ofNat (0xe0 ||| k.val) &&& (0x1f : UInt8)).toNat = k.val % 32 := by decide +kernel
  exact this ⟨k, h⟩

theorem extendedHeader_big {k : Nat} (h : 256 ≤ k) :
    mkByte ((0xe0 ||| k : Nat) : Int) = .error .valueError := by
  apply mkByte_err
  have : k ≤ 0xe0 ||| k := Nat.right_le_or
  omega

/-- Encoding a report and decoding it with the decoder for its block type. -/
theorem report_encode (r : Report) (hr : ReportOk r) :
    ∃ b, r.encode = .ok b ∧ b.length = reportSize r ∧
      match r with
      | .binary s => binaryDecode b = s
      | .level s => levelDecode b = .ok s := by
  cases r with
  | binary s =>
    obtain ⟨b, h1, h2, h3⟩ := binaryEncode_ok s
    simp only [ReportOk] at hr
    rw [binaryPad_of_mod hr] at h2 h3
    exact ⟨b, h1, by simp [reportSize]; omega, h2⟩
  | level s =>
    refine ⟨_, levelEncode_eq s, flatMap_levelBytes_length s, ?_⟩
    simp only
    unfold levelDecode
    rw [flatMap_levelBytes_length, if_neg (by omega), levelDecodeGo_bytes]
    congr 1
    conv => rhs; rw [← List.map_id s]
    apply List.map_congr_left
    intro x hx
    have := hr x hx
    cases x with
    | none => rfl
    | some v => simp only [LevelOk] at this; simp only [Option.map_some, id]; congr 1; omega

/-- Encoded size of any report. -/
theorem report_size (r : Report) : ∃ b, r.encode = .ok b ∧ b.length = reportSize r := by
  cases r with
  | binary s =>
    obtain ⟨b, h1, -, h3⟩ := binaryEncode_ok s
    refine ⟨b, h1, ?_⟩
    unfold binaryPad at h3
    simp only at h3
    split at h3
    · simp at h3; simp [reportSize]; omega
    · simp [reportSize]; omega
  | level s => exact ⟨_, levelEncode_eq s, flatMap_levelBytes_length s⟩

theorem codingByte_ext (ext : Bool) (r : Report) :
    (decide (codingByte ext r &&& 0x40 > 0)) = ext ∧ codingByte ext r &&& 7 = r.blockType := by
  have key : ∀ (ext : Bool) (bt : UInt8), bt = 0 ∨ bt = 7 →
      (decide (((if ext then (0x40 : UInt8) else 0) ||| (bt &&& (7 : UInt8))) &&& (0x40 : UInt8) > 0)) = ext ∧
      ((if ext then (0x40 : UInt8) else 0) ||| (bt &&& (7 : UInt8))) &&& (7 : UInt8) = bt := by
    rintro ext bt (rfl | rfl) <;> cases ext <;> decide
  exact key ext r.blockType (by cases r <;> simp [Report.blockType])

theorem isByte_cast {x : Int} (h : IsByte x) : ((lowByte x).toNat : Int) = x := by
  rw [lowByte_toNat]; unfold IsByte at h; omega


/-! Equations for `decodeCal`, one per command class. -/

theorem decodeCal_80 {cmd : UInt8} {n : Nat} (rest : Bytes) (h : cmd &&& 0xe0 = 0x80)
    (hn : (cmd &&& 0x1f).toNat = n) :
    decodeCal (cmd :: rest) = if rest.length < n then .error .valueError else
      match replyDecode (rest.take n) with
      | .ok c => .ok (c, n + 1)
      | .error e => .error e := by
  subst hn
  simp only [decodeCal, byteAt, List.getElem?_cons_zero, bind, Except.bind, h, if_true,
    List.length_cons, Nat.add_lt_add_iff_right, List.take_succ_cons, List.drop_succ_cons, List.drop_zero]
  split
  · rfl
  · cases replyDecode (List.take (cmd &&& 0x1f).toNat rest) <;> rfl

theorem decodeCal_e0 {cmd : UInt8} {n : Nat} (rest : Bytes) (h : cmd &&& 0xe0 = 0xe0)
    (hn : (cmd &&& 0x1f).toNat = n) :
    decodeCal (cmd :: rest) = if rest.length < n then .error .valueError else
      match extendedDecode (rest.take n) with
      | .ok c => .ok (c, n + 1)
      | .error e => .error e := by
  subst hn
  have n0 : ¬ ((0xe0 : UInt8) = 0x80) := by decide
  have n1 : ¬ ((0xe0 : UInt8) = 0xc0) := by decide
  simp only [decodeCal, byteAt, List.getElem?_cons_zero, bind, Except.bind, h, if_true, n0, n1, if_false,
    List.length_cons, Nat.add_lt_add_iff_right, List.take_succ_cons, List.drop_succ_cons, List.drop_zero]
  split
  · rfl
  · cases extendedDecode (List.take (cmd &&& 0x1f).toNat rest) <;> rfl

theorem decodeCal_21 (b : UInt8) (rest : Bytes) :
    decodeCal (0x21 :: b :: rest) = match mkIdentifyAttribute b with
      | .ok a => .ok (.identify a, 2)
      | .error e => .error e := by
  have d1 : ¬ ((0x21 : UInt8) &&& 0xe0 = 0x80) := by decide
  have d2 : ¬ ((0x21 : UInt8) &&& 0xe0 = 0xc0) := by decide
  have d3 : ¬ ((0x21 : UInt8) &&& 0xe0 = 0xe0) := by decide
  simp only [decodeCal, byteAt, List.getElem?_cons_zero, List.getElem?_cons_succ, bind, Except.bind, d1,
    d2, d3, if_true, if_false]
  cases mkIdentifyAttribute b <;> rfl

theorem decodeCal_1a (b c : UInt8) (rest : Bytes) :
    decodeCal (0x1a :: b :: c :: rest) = .ok (.recall b.toNat c.toNat, 3) := by
  have d1 : ¬ ((0x1a : UInt8) &&& 0xe0 = 0x80) := by decide
  have d2 : ¬ ((0x1a : UInt8) &&& 0xe0 = 0xc0) := by decide
  have d3 : ¬ ((0x1a : UInt8) &&& 0xe0 = 0xe0) := by decide
  have d4 : ¬ ((0x1a : UInt8) = 0x21) := by decide
  simp only [decodeCal, byteAt, List.getElem?_cons_zero, List.getElem?_cons_succ, bind, Except.bind, d1,
    d2, d3, d4, if_true, if_false]
  rfl

/-- One well-formed CAL, followed by anything. -/
theorem decodeCal_encode (c : CAL) (hc : CalOk c) (suf : Bytes) :
    ∃ b, c.encode = .ok b ∧ 0 < b.length ∧ decodeCal (b ++ suf) = .ok (c, b.length) := by
  cases c with
  | identify a =>
    refine ⟨_, rfl, by simp, ?_⟩
    simp only [CalOk] at hc
    have hb : ((lowByte a).toNat : Int) = a := isByte_cast ⟨hc.1, by omega⟩
    have hle : lowByte a ≤ 0x11 := by
      rw [UInt8.le_iff_toNat_le]
      have : (0x11 : UInt8).toNat = 17 := rfl
      omega
    simp only [List.cons_append, decodeCal_21, mkIdentifyAttribute, hle, if_true, hb]
    rfl
  | recall p c =>
    refine ⟨_, rfl, by simp, ?_⟩
    simp only [CalOk] at hc
    simp only [List.cons_append, decodeCal_1a, isByte_cast hc.1, isByte_cast hc.2]
    rfl
  | reply p d =>
    simp only [CalOk] at hc
    have ht : d.take 30 = d := List.take_of_length_le (by omega)
    refine ⟨_, rfl, by simp, ?_⟩
    rw [show (0x1e : Nat) = 30 from rfl, ht]
    obtain ⟨h1, h2⟩ := replyHeader (k := d.length + 1) (by omega)
    rw [List.cons_append, decodeCal_80 _ h1 h2, if_neg (by simp)]
    simp [replyDecode, byteAt, isByte_cast hc.1, bind, Except.bind, pure, Except.pure]
  | extended ext app blk r =>
    simp only [CalOk] at hc
    obtain ⟨h1, h2, h3, h4⟩ := hc
    obtain ⟨b, e1, e2, e3⟩ := report_encode r h3
    obtain ⟨k1, k2, k3⟩ := extendedHeader (k := b.length + 3) (by omega)
    refine ⟨UInt8.ofNat (0xe0 ||| (b.length + 3)) :: codingByte ext r :: lowByte app :: lowByte blk :: b,
      ?_, by simp, ?_⟩
    · simp only [CAL.encode, e1, bind, Except.bind, k1]; rfl
    · obtain ⟨c1, c2⟩ := codingByte_ext ext r
      rw [Nat.mod_eq_of_lt (by omega)] at k3
      rw [List.cons_append, decodeCal_e0 _ k2 k3, if_neg (by simp)]
      have t : List.take (b.length + 3) (codingByte ext r :: lowByte app :: lowByte blk :: b ++ suf) =
          codingByte ext r :: lowByte app :: lowByte blk :: b := by
        simp
      rw [t]
      simp only [extendedDecode, byteAt, List.getElem?_cons_zero, List.getElem?_cons_succ, bind,
        Except.bind, c2, isByte_cast h1, isByte_cast h2, List.drop_succ_cons, List.drop_zero]
      cases r with
      | binary s =>
        simp only [Report.blockType, if_true, pure, Except.pure, c1]
        simp only at e3
        rw [e3]; simp
      | level s =>
        have : ¬ ((0x07 : UInt8) = 0x00) := by decide
        simp only [Report.blockType, this, if_false, if_true, pure, Except.pure, c1]
        simp only at e3
        rw [e3]; simp

/-- What a successful `decodeCal` used lies within the data, and is all it
looked at. -/
theorem decodeCal_ok {data : Bytes} {c : CAL} {n : Nat} (h : decodeCal data = .ok (c, n)) :
    0 < n ∧ n ≤ data.length ∧ ∀ suf, decodeCal (data.take n ++ suf) = .ok (c, n) := by
  refine ⟨decodeCal_pos h, ?_⟩
  cases data with
  | nil => simp [decodeCal, byteAt, bind, Except.bind] at h
  | cons cmd rest =>
    generalize hk : (cmd &&& 0x1f).toNat = k
    by_cases h80 : cmd &&& 0xe0 = 0x80
    · rw [decodeCal_80 rest h80 hk] at h
      split at h
      · cases h
      · rename_i hl
        split at h
        · rename_i c' hc'
          simp only [Except.ok.injEq, Prod.mk.injEq] at h
          obtain ⟨rfl, rfl⟩ := h
          refine ⟨by simp; omega, ?_⟩
          intro suf
          rw [List.take_succ_cons, List.cons_append, decodeCal_80 _ h80 hk, if_neg (by simp; omega)]
          rw [List.take_append_of_le_length (by simp; omega), List.take_take, Nat.min_self, hc']
        · cases h
    · by_cases he0 : cmd &&& 0xe0 = 0xe0
      · rw [decodeCal_e0 rest he0 hk] at h
        split at h
        · cases h
        · rename_i hl
          split at h
          · rename_i c' hc'
            simp only [Except.ok.injEq, Prod.mk.injEq] at h
            obtain ⟨rfl, rfl⟩ := h
            refine ⟨by simp; omega, ?_⟩
            intro suf
            rw [List.take_succ_cons, List.cons_append, decodeCal_e0 _ he0 hk, if_neg (by simp; omega)]
            rw [List.take_append_of_le_length (by simp; omega), List.take_take, Nat.min_self, hc']
          · cases h
      · by_cases h21 : cmd = 0x21
        · subst h21
          match rest, h with
          | [], h =>
            have : decodeCal [0x21] = .error .indexError := by decide +kernel
            rw [this] at h; cases h
          | b :: rest', h =>
            rw [decodeCal_21] at h
            split at h
            · rename_i a ha
              simp only [Except.ok.injEq, Prod.mk.injEq] at h
              obtain ⟨rfl, rfl⟩ := h
              refine ⟨by simp, ?_⟩
              intro suf
              simp only [List.take_succ_cons, List.take_zero, List.cons_append, List.nil_append]
              rw [decodeCal_21, ha]
            · cases h
        · by_cases h1a : cmd = 0x1a
          · subst h1a
            match rest, h with
            | [], h =>
              have : decodeCal [0x1a] = .error .indexError := by decide +kernel
              rw [this] at h; cases h
            | [b], h =>
              have : ∀ b, decodeCal [0x1a, b] = .error .indexError := by
                apply forall_byte; decide +kernel
              rw [this] at h; cases h
            | b :: b2 :: rest', h =>
              rw [decodeCal_1a] at h
              simp only [Except.ok.injEq, Prod.mk.injEq] at h
              obtain ⟨rfl, rfl⟩ := h
              refine ⟨by simp, ?_⟩
              intro suf
              simp only [List.take_succ_cons, List.take_zero, List.cons_append, List.nil_append]
              rw [decodeCal_1a]
          · exfalso
            simp only [decodeCal, byteAt, List.getElem?_cons_zero, bind, Except.bind, h80, he0, h21,
              h1a, if_false, throw, throwThe, MonadExceptOf.throw] at h
            split at h <;> cases h

theorem decodeCals_cons {b suf : Bytes} {c : CAL} (hb : 0 < b.length)
    (h : decodeCal (b ++ suf) = .ok (c, b.length)) {l : List CAL} (hl : decodeCals suf = .ok l) :
    decodeCals (b ++ suf) = .ok (c :: l) := by
  rw [decodeCals]
  have hne : b ++ suf ≠ [] := by
    intro hn; simp at hn; rw [hn.1] at hb; simp at hb
  rw [dif_neg hne]
  split
  · rename_i e he; rw [h] at he; cases he
  · rename_i r hr
    rw [h] at hr; injection hr with hr; subst hr
    simp [hl]

end CBus
