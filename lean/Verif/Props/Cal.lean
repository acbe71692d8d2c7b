import Verif.Lemmas.Cal

/-! # C12-C15: CALs -/

namespace CBus.Props
open CBus CBus.Spec

/-! ## C12 -/

/-- C12: an extended status CAL whose report has at most 28 bytes is decoded to
itself, consuming exactly its own bytes, whatever follows. -/
theorem C12_extended_roundtrip (ext : Bool) (app blk : Int) (r : Report)
    (ha : IsByte app) (hb : IsByte blk) (hr : ReportOk r) (hs : reportSize r ≤ 28) (suf : Bytes) :
    ∃ b, (CAL.extended ext app blk r).encode = .ok b ∧ b.length = reportSize r + 4 ∧
      decodeCal (b ++ suf) = .ok (.extended ext app blk r, b.length) := by
  obtain ⟨b, h1, -, h3⟩ := decodeCal_encode (.extended ext app blk r) ⟨ha, hb, hr, hs⟩ suf
  refine ⟨b, h1, ?_, h3⟩
  obtain ⟨rep, e1, e2⟩ := report_size r
  obtain ⟨k1, -, -⟩ := extendedHeader (k := rep.length + 3) (by omega)
  simp only [CAL.encode, e1, bind, Except.bind, k1, pure, Except.pure, Except.ok.injEq] at h1
  rw [← h1]; simp [e2]

example : decodeCal ([0xe5, 0x00, 0x38, 0x58, 0x39, 0x01] ++ [0xff]) =
    .ok (.extended false 0x38 0x58
      (.binary [.on, .off, .error, .missing, .on, .missing, .missing, .missing]), 6) := by
  decide +kernel

/-! ## C13 -/

/-- C13 is false of the code: for every report of 29 to 252 bytes, encoding
succeeds and yields a CAL whose length field is too small, so a receiver that
accepts it at all attributes to it fewer bytes than were written. -/
theorem C13_overlong_misframed (ext : Bool) (app blk : Int) (r : Report)
    (h1 : 29 ≤ reportSize r) (h2 : reportSize r ≤ 252) :
    ∃ b, (CAL.extended ext app blk r).encode = .ok b ∧
      ∀ suf c n, decodeCal (b ++ suf) = .ok (c, n) → n < b.length := by
  obtain ⟨rep, e1, e2⟩ := report_size r
  obtain ⟨k1, k2, k3⟩ := extendedHeader (k := rep.length + 3) (by omega)
  refine ⟨UInt8.ofNat (0xe0 ||| (rep.length + 3)) :: codingByte ext r :: lowByte app :: lowByte blk :: rep,
    ?_, ?_⟩
  · simp only [CAL.encode, e1, bind, Except.bind, k1]; rfl
  · intro suf c n h
    rw [List.cons_append, decodeCal_e0 _ k2 k3] at h
    split at h
    · cases h
    · split at h
      · simp only [Except.ok.injEq, Prod.mk.injEq] at h
        simp only [List.length_cons]
        omega
      · cases h

/-- C13: a concrete case. The level report below is 58 bytes long; the encoded
CAL is accepted by the decoder as a different, shorter report. -/
theorem C13_false : ∃ (c c' : CAL) (b : Bytes) (n : Nat),
    c.encode = .ok b ∧ decodeCal b = .ok (c', n) ∧ c' ≠ c ∧ n < b.length :=
  ⟨.extended false 0x38 0 (.level (List.replicate 29 (some 255))),
   .extended false 0x38 0 (.level (List.replicate 13 (some 255))), _, 30, by rfl, by rfl,
   by decide +kernel, by decide +kernel⟩

/-- C13, the part that holds (what is missing: sizes 29 to 252, where encoding
should raise and does not): sizes up to 28 are framed correctly, sizes from 253
raise `ValueError`. -/
theorem C13_overlong_partial (ext : Bool) (app blk : Int) (r : Report) :
    (reportSize r ≤ 28 → ∃ b, (CAL.extended ext app blk r).encode = .ok b ∧
      ∃ hd tl, b = hd :: tl ∧ hd.toNat % 32 = tl.length) ∧
    (253 ≤ reportSize r → (CAL.extended ext app blk r).encode = .error .valueError) := by
  obtain ⟨rep, e1, e2⟩ := report_size r
  constructor
  · intro h
    obtain ⟨k1, k2, k3⟩ := extendedHeader (k := rep.length + 3) (by omega)
    refine ⟨UInt8.ofNat (0xe0 ||| (rep.length + 3)) :: codingByte ext r :: lowByte app :: lowByte blk :: rep,
      ?_, _, _, rfl, ?_⟩
    · simp only [CAL.encode, e1, bind, Except.bind, k1]; rfl
    · have : ∀ b : UInt8, b.toNat % 32 = (b &&& 0x1f).toNat := by apply forall_byte; decide +kernel
      rw [this, k3, Nat.mod_eq_of_lt (by omega)]
      simp
  · intro h
    have := extendedHeader_big (k := rep.length + 3) (by omega)
    simp only [CAL.encode, e1, bind, Except.bind, this]

example : reportSize (.level (List.replicate 29 (some 255))) = 58 ∧
    reportSize (.binary (List.replicate 1012 .on)) = 253 := by
  constructor <;> (simp only [reportSize, List.length_replicate])

/-! ## C14 -/

/-- C14: IDENTIFY. -/
theorem C14_identify (a : Int) (h : 0 ≤ a ∧ a ≤ 0x11) (suf : Bytes) :
    ∃ b, (CAL.identify a).encode = .ok b ∧ b.length = 2 ∧
      decodeCal (b ++ suf) = .ok (.identify a, 2) := by
  obtain ⟨b, h1, -, h3⟩ := decodeCal_encode (.identify a) h suf
  have : b.length = 2 := by simp only [CAL.encode, Except.ok.injEq] at h1; rw [← h1]; rfl
  exact ⟨b, h1, this, this ▸ h3⟩

/-- C14: undefined attributes are not decoded. -/
theorem C14_identify_undefined (a : UInt8) (h : 0x11 < a.toNat) (suf : Bytes) :
    decodeCal (0x21 :: a :: suf) = .error .valueError := by
  have : ¬ a ≤ 0x11 := by
    rw [UInt8.le_iff_toNat_le]; have : (0x11 : UInt8).toNat = 17 := rfl; omega
  rw [decodeCal_21]; simp [mkIdentifyAttribute, this]

/-- C14: RECALL. -/
theorem C14_recall (p c : Int) (hp : IsByte p) (hc : IsByte c) (suf : Bytes) :
    ∃ b, (CAL.recall p c).encode = .ok b ∧ b.length = 3 ∧
      decodeCal (b ++ suf) = .ok (.recall p c, 3) := by
  obtain ⟨b, h1, -, h3⟩ := decodeCal_encode (.recall p c) ⟨hp, hc⟩ suf
  have : b.length = 3 := by simp only [CAL.encode, Except.ok.injEq] at h1; rw [← h1]; rfl
  exact ⟨b, h1, this, this ▸ h3⟩

/-- C14: REPLY, with data of any length: the first 30 bytes arrive. -/
theorem C14_reply (p : Int) (d : Bytes) (hp : IsByte p) (suf : Bytes) :
    ∃ b, (CAL.reply p d).encode = .ok b ∧
      decodeCal (b ++ suf) = .ok (.reply p (d.take 30), b.length) ∧
      (d.length ≤ 30 → decodeCal (b ++ suf) = .ok (.reply p d, b.length)) := by
  obtain ⟨b, h1, -, h3⟩ := decodeCal_encode (.reply p (d.take 30)) ⟨hp, by simp; omega⟩ suf
  have e : (CAL.reply p d).encode = (CAL.reply p (d.take 30)).encode := by
    simp [CAL.encode, List.take_take]
  rw [← e] at h1
  refine ⟨b, h1, h3, ?_⟩
  intro hd
  rw [List.take_of_length_le hd] at h3
  exact h3

example : (CAL.reply 3 [1, 2, 3]).encode = .ok [0x84, 3, 1, 2, 3] ∧
    decodeCal [0x84, 3, 1, 2, 3, 0x21, 0] = .ok (.reply 3 [1, 2, 3], 5) ∧
    (CAL.recall 5 2).encode = .ok [0x1a, 5, 2] ∧ (CAL.identify 1).encode = .ok [0x21, 1] := by
  decide +kernel

/-! ## C15 -/

/-- C15: any sequence of well-formed CALs, encoded back to back, decodes to
exactly that sequence. -/
theorem C15_cal_sequence (cals : List CAL) (h : ∀ c ∈ cals, CalOk c) :
    ∃ b, encodeCals cals = .ok b ∧ decodeCals b = .ok cals := by
  induction cals with
  | nil => exact ⟨[], rfl, by rw [decodeCals]; simp⟩
  | cons c cs ih =>
    obtain ⟨r, h1, h2⟩ := ih (fun c hc => h c (by simp [hc]))
    obtain ⟨b, e1, e2, e3⟩ := decodeCal_encode c (h c (by simp)) r
    refine ⟨b ++ r, by simp [encodeCals, e1, h1, bind, Except.bind, pure, Except.pure], ?_⟩
    exact decodeCals_cons e2 e3 h2

/-- C15, decoder side: what is decoded accounts for all the bytes: the data is
the concatenation of one non-empty piece per CAL, each of which decodes to its
CAL on its own, whatever follows it. -/
theorem C15_decode_pieces (data : Bytes) (cals : List CAL) (h : decodeCals data = .ok cals) :
    ∃ pieces : List Bytes, pieces.flatten = data ∧ pieces.length = cals.length ∧
      ∀ i (hi : i < pieces.length) (hj : i < cals.length), pieces[i] ≠ [] ∧
        ∀ suf, decodeCal (pieces[i] ++ suf) = .ok (cals[i], pieces[i].length) := by
  induction hn : data.length using Nat.strongRecOn generalizing data cals with
  | _ n ih =>
    rw [decodeCals] at h
    split at h
    · rename_i he
      injection h with h; subst h; subst he
      exact ⟨[], rfl, rfl, by intro i hi; simp at hi⟩
    · rename_i he
      split at h
      · cases h
      · rename_i r hr
        split at h
        · cases h
        · rename_i l hl
          injection h with h; subst h
          obtain ⟨p1, p2, p3⟩ := decodeCal_ok (c := r.1) (n := r.2) hr
          obtain ⟨ps, q1, q2, q3⟩ := ih (data.drop r.2).length (by simp; omega) (data.drop r.2) l hl rfl
          refine ⟨data.take r.2 :: ps, by simp [q1], by simp [q2], ?_⟩
          intro i hi hj
          cases i with
          | zero =>
            simp only [List.getElem_cons_zero]
            constructor
            · intro hc
              have : (data.take r.2).length = 0 := by rw [hc]; rfl
              rw [List.length_take] at this; omega
            · intro suf
              rw [p3 suf, List.length_take, Nat.min_eq_left p2]
          | succ i =>
            simp only [List.getElem_cons_succ]
            exact q3 i (by simpa using hi) (by simpa using hj)

example : ∃ cals, decodeCals [0x21, 0x01, 0x1a, 0x02, 0x03, 0x83, 0x05, 0xaa, 0xbb] = .ok cals ∧
    cals = [.identify 1, .recall 2 3, .reply 5 [0xaa, 0xbb]] := by
  obtain ⟨b, h1, h2⟩ := C15_cal_sequence [.identify 1, .recall 2 3, .reply 5 [0xaa, 0xbb]]
    (by decide)
  have : b = [0x21, 0x01, 0x1a, 0x02, 0x03, 0x83, 0x05, 0xaa, 0xbb] := by
    have e : encodeCals [.identify 1, .recall 2 3, .reply 5 [0xaa, 0xbb]] =
      .ok [0x21, 0x01, 0x1a, 0x02, 0x03, 0x83, 0x05, 0xaa, 0xbb] := by decide +kernel
    rw [e] at h1; injection h1 with h1; exact h1.symm
  subst this
  exact ⟨_, h2, rfl⟩

end CBus.Props
