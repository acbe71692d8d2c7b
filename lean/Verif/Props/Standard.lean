import Verif.Props.Report
import Verif.Props.Codec
import Verif.Model.Cal

/-! # C108: standard status reports -/

namespace CBus.Props
open CBus CBus.Spec

/-- The bytes of the report of so many group states, four to a byte. -/
def reportBytes (n : Nat) : Nat := (n + 3) / 4

theorem standard_encode (app block : Int) (states : List GroupState) :
    ∃ rep k, k < 4 ∧ (states.length % 4 = 0 → k = 0) ∧ rep.length = reportBytes states.length ∧
      binaryDecode rep = states ++ List.replicate k .missing ∧
      standardCalEncode app block states =
        (mkByte ((0xc0 ||| (rep.length + 3) : Nat) : Int)).map fun hd => hd :: lowByte app :: lowByte block :: rep := by
  obtain ⟨rep, k, h1, h2, h3, h4, h5⟩ := C11_binary_states states
  refine ⟨rep, k, h2, h5, by unfold reportBytes; omega, h4, ?_⟩
  unfold standardCalEncode
  simp only [h1, bind, Except.bind, pure, Except.pure]
  cases mkByte ((0xc0 ||| (rep.length + 3) : Nat) : Int) <;> rfl

/-- C108 in full: a standard status report of any group states is written as a CAL that
announces a standard status report in its three highest bits, and is read back as it
was. -/
def C108_claim : Prop :=
  ∀ (app block : Int) (states : List GroupState) (b : Bytes), standardCalEncode app block states = .ok b →
    ∃ hd tl k, b = hd :: tl ∧ hd.toNat / 32 = 6 ∧ k < 4 ∧ (states.length % 4 = 0 → k = 0) ∧
      standardCalDecode tl = .ok ⟨app % 256, block % 256, states ++ List.replicate k .missing⟩

/-- C108, the contents: what `encode` writes for any application, block and group
states is, after its first byte, read back by `decode_cal` as the low bytes of the
application and the block, and the states followed by fewer than four missing ones.

What is missing: the announcement, see `C108_false`. -/
theorem C108_contents_partial (app block : Int) (states : List GroupState) (b : Bytes)
    (h : standardCalEncode app block states = .ok b) :
    ∃ hd tl k, b = hd :: tl ∧ k < 4 ∧ (states.length % 4 = 0 → k = 0) ∧
      standardCalDecode tl = .ok ⟨app % 256, block % 256, states ++ List.replicate k .missing⟩ := by
  obtain ⟨rep, k, h2, h5, -, h4, he⟩ := standard_encode app block states
  rw [he] at h
  generalize hm : mkByte _ = m at h
  cases m with
  | error e => cases h
  | ok hd =>
    injection h with h
    subst h
    refine ⟨hd, _, k, rfl, h2, h5, ?_⟩
    show Except.ok _ = _
    simp only [lowByte_toNat, List.drop_succ_cons, List.drop_zero, h4]

theorem or_c0 : ∀ n < 32, (0xc0 ||| n : Nat) = 192 + n := by decide +kernel

/-- C108 up to 112 group states: the CAL is written, announces a standard status
report, and its length field is three more than the bytes of the report, which is one
more than the bytes that follow (see C54).

What is missing: longer reports, see `C108_false`. -/
theorem C108_header_partial (app block : Int) (states : List GroupState) (h : states.length ≤ 112) :
    ∃ hd tl, standardCalEncode app block states = .ok (hd :: tl) ∧ hd.toNat / 32 = 6 ∧
      hd.toNat % 32 = reportBytes states.length + 3 ∧ tl.length = reportBytes states.length + 2 := by
  obtain ⟨rep, k, -, -, hl, -, he⟩ := standard_encode app block states
  have hb : reportBytes states.length ≤ 28 := by unfold reportBytes; omega
  have hn := or_c0 (rep.length + 3) (by omega)
  rw [he, hn, mkByte, if_pos ⟨by omega, by omega⟩]
  have ht : (UInt8.ofNat ((192 + (rep.length + 3) : Nat) : Int).toNat).toNat = 192 + (rep.length + 3) := by
    simp only [Int.toNat_natCast, UInt8.toNat_ofNat']
    omega
  refine ⟨_, _, rfl, ?_, ?_, by simp only [List.length_cons]; omega⟩
  · rw [ht]; omega
  · rw [ht]; omega

/-- C108 is false: the length of a report of 113 group states runs into the bits of the
kind, and the CAL announces an extended status report. -/
theorem C108_false : ¬ C108_claim := by
  intro h
  have h1 : standardCalEncode 56 0 (List.replicate 113 .on) =
      .ok (0xe0 :: 56 :: 0 :: (List.replicate 28 0x55 ++ [1])) := by decide +kernel
  obtain ⟨hd, tl, k, h2, h3, -⟩ := h _ _ _ _ h1
  cases h2
  revert h3
  decide

/-- A report that does not fit in a byte at all is refused. -/
theorem C108_too_long (app block : Int) (states : List GroupState) (h : 253 ≤ reportBytes states.length) :
    standardCalEncode app block states = .error .valueError := by
  obtain ⟨rep, k, -, -, hl, -, he⟩ := standard_encode app block states
  have : rep.length + 3 ≤ (0xc0 ||| (rep.length + 3)) := Nat.right_le_or
  rw [he, mkByte, if_neg (by omega)]
  rfl

/-- C108, the packet: with a checksum or without, the base16 text of `encode_packet`
stands for the bytes of `encode`, which with a checksum sum to zero together with the
last. -/
theorem C108_packet (app block : Int) (states : List GroupState) (b : Bytes)
    (h : standardCalEncode app block states = .ok b) :
    (∃ p, standardCalEncodePacket false app block states = .ok p ∧ b16decode p = .ok b) ∧
    (∃ p c, standardCalEncodePacket true app block states = .ok p ∧ b16decode p = .ok (b ++ [c]) ∧ SumsToZero (b ++ [c])) := by
  unfold standardCalEncodePacket
  simp only [h, bind, Except.bind, pure, Except.pure]
  obtain ⟨-, ⟨c, h2⟩, h3⟩ := C01_checksum_valid b
  refine ⟨⟨_, rfl, b16decode_b16encode _⟩, _, c, rfl, ?_, h2 ▸ h3⟩
  rw [if_pos trivial, b16decode_b16encode, h2]

/-- C108: `decode_cal` reads any two bytes and what follows, and raises `IndexError` on
less. -/
theorem C108_decode (data : Bytes) :
    (∃ a b rest, data = a :: b :: rest ∧
      standardCalDecode data = .ok ⟨a.toNat, b.toNat, binaryDecode rest⟩) ∨
    (data.length < 2 ∧ standardCalDecode data = .error .indexError) := by
  match data with
  | [] => exact .inr ⟨by decide, rfl⟩
  | [_] => exact .inr ⟨by simp, rfl⟩
  | a :: b :: rest => exact .inl ⟨a, b, rest, rfl, rfl⟩

example :
    standardCalEncode 0x38 0x58 [.on, .off, .error, .missing, .on] = .ok [0xc5, 0x38, 0x58, 0x39, 0x01] ∧
    standardCalDecode [0x38, 0x58, 0x39, 0x01] =
      .ok ⟨0x38, 0x58, [.on, .off, .error, .missing, .on, .missing, .missing, .missing]⟩ := by decide +kernel

end CBus.Props
